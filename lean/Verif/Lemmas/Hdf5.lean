import Verif.Spec.Hdf5
import Mathlib.Data.Nat.Digits.Lemmas
import Mathlib.Data.List.Nodup

namespace Scipp.Hdf5

open Spec

variable {V : Type}

theorem pad3_small {n : Nat} (h : n < 1000) : pad3 n = [48 + n / 100, 48 + n / 10 % 10, 48 + n % 10] := by
  unfold pad3 decimal
  rcases Nat.eq_zero_or_pos n with rfl | hp
  · simp
  rw [Nat.digits_def' (by norm_num) hp]
  by_cases h1 : n < 10
  · have : n / 10 = 0 := by omega
    have h2 : n / 100 = 0 := by omega
    simp [this, h2]
  rw [Nat.digits_def' (by norm_num) (by omega : 0 < n / 10)]
  by_cases h2 : n < 100
  · have h3 : n / 10 / 10 = 0 := by omega
    have h4 : n / 100 = 0 := by omega
    simp [h3, h4]
  rw [Nat.digits_def' (by norm_num) (by omega : 0 < n / 10 / 10)]
  have h3 : n / 10 / 10 / 10 = 0 := by omega
  have h4 : n / 10 / 10 % 10 = n / 100 := by omega
  simp [h3, h4]

theorem elem_lt {i j : Nat} (hij : i < j) (hj : j < 1000) (a b : Text) : elemName a i < elemName b j := by
  unfold elemName
  rw [pad3_small hj, pad3_small (by omega)]
  simp only [List.cons_append, List.nil_append, List.cons_lt_cons_iff, lt_self_iff_false, false_or, true_and]
  omega

theorem elem_1000 (a b : Text) : elemName a 1000 < elemName b 101 := by
  have h : pad3 1000 = [49, 48, 48, 48] := by unfold pad3 decimal; norm_num
  unfold elemName
  rw [h, pad3_small (by norm_num)]
  simp only [List.cons_append, List.nil_append, List.cons_lt_cons_iff, lt_self_iff_false, false_or, true_and]
  norm_num

/-- Members in order of their names, with indices from `i`. -/
def Ordered {β : Type} (i : Nat) (ms : Members β) : Prop :=
  ms.Pairwise (fun a b => a.1 < b.1) ∧ ∀ m ∈ ms, ∃ j a, i ≤ j ∧ j < 1000 ∧ m.1 = elemName a j

theorem Ordered.nil {β : Type} (i : Nat) : Ordered (β := β) i [] := ⟨List.Pairwise.nil, by simp⟩

theorem Ordered.mono {β : Type} {i : Nat} {ms : Members β} (h : Ordered (i + 1) ms) : Ordered i ms :=
  ⟨h.1, fun m hm => by obtain ⟨j, a, h1, h2⟩ := h.2 m hm; exact ⟨j, a, by omega, h2⟩⟩

theorem Ordered.cons {β : Type} {i : Nat} {ms : Members β} (h : Ordered (i + 1) ms) (hi : i < 1000) (a n : Text) (x : β) :
    Ordered i ((elemName a i, n, x) :: ms) := by
  refine ⟨List.pairwise_cons.2 ⟨fun m hm => ?_, h.1⟩, fun m hm => ?_⟩
  · obtain ⟨j, b, h1, h2, h3⟩ := h.2 m hm
    rw [h3]
    exact elem_lt (by omega) h2 _ _
  · rcases List.mem_cons.1 hm with rfl | hm
    · exact ⟨i, a, le_refl _, hi, rfl⟩
    · exact h.mono.2 m hm

theorem visit_ordered {β : Type} {ms : Members β} (h : ms.Pairwise (fun a b => a.1 < b.1)) : visit ms = ms.map (·.2) := by
  unfold visit
  rw [List.Pairwise.insertionSort_eq]
  exact h.imp fun h => le_of_lt h

theorem visit_perm {β : Type} (ms : Members β) : (visit ms).Perm (ms.map (·.2)) := (List.perm_insertionSort _ _).map _

theorem foldl_zero (l : List Nat) (a : Nat) (h : a = 0 ∨ 0 ∈ l) : l.foldl (· * ·) a = 0 := by
  induction l generalizing a with
  | nil => simpa using h
  | cons b l ih =>
    refine ih _ ?_
    rcases h with rfl | h
    · simp
    · rcases List.mem_cons.1 h with rfl | h
      · simp
      · exact Or.inr h

theorem writeVar_fine {v : Var V} (h : FineVar v) : writeVar v = .ok (if supported v then some v else none) := by
  obtain ⟨k, sh, al, r⟩ := v
  cases k with
  | plain => rfl
  | bins => rfl
  | unsupported => rfl
  | string =>
    have h' := h rfl
    cases sh with
    | nil => rfl
    | cons n t =>
      have : ¬ n < volume (n :: t) := by
        rcases h' with h' | h'
        · have : t = [] := by simpa using h'
          subst this
          simp [volume]
        · rw [volume, foldl_zero _ _ (Or.inr h')]
          omega
      simp only [writeVar, this, if_false]
      rfl

theorem readVar_fine {v : Var V} (h : FineVar v) (hs : supported v = true) : readVar v = .ok (loaded v) := by
  obtain ⟨k, sh, al, r⟩ := v
  cases k with
  | plain => rfl
  | bins => rfl
  | unsupported => cases hs
  | string =>
    have : ¬ (2 ≤ sh.length ∧ 0 < volume sh) := by
      rcases h rfl with h' | h'
      · have : sh.length ≤ 1 := h'
        omega
      · rw [volume, foldl_zero _ _ (Or.inr h')]
        omega
    simp only [readVar, this, if_false]
    rfl

theorem writeVars_ok (o : Members (Var V)) (l : List (Text × Var V)) (i : Nat) (ho : ∀ x ∈ l, writeLinked o x.1 x.2 = writeVar x.2)
    (hf : ∀ x ∈ l, FineVar x.2) :
    ∃ ms ys, writeVars o l i = .ok ms ∧ readAll (fun _ => readVar) ms = .ok ys ∧ ys.map (·.2) = loadedVars l ∧
      ms.map (·.2) = l.filter (fun x => supported x.2) ∧ (i + l.length ≤ 1000 → Ordered i ys) := by
  induction l generalizing i with
  | nil => exact ⟨[], [], rfl, rfl, rfl, rfl, fun _ => Ordered.nil _⟩
  | cons x l ih =>
    obtain ⟨n, v⟩ := x
    obtain ⟨ms, ys, h1, h2, h3, h4, h5⟩ := ih (i + 1) (fun x hx => ho x (List.mem_cons_of_mem _ hx)) (fun x hx => hf x (List.mem_cons_of_mem _ hx))
    have hv : FineVar v := hf _ List.mem_cons_self
    have hw := ho _ List.mem_cons_self
    simp only at hw
    by_cases hs : supported v = true
    · refine ⟨(elemName n i, n, v) :: ms, (elemName n i, n, loaded v) :: ys, ?_, ?_, ?_, ?_, fun hl => ?_⟩
      · simp only [writeVars, hw, writeVar_fine hv, hs, if_true, h1]
      · simp only [readAll, readVar_fine hv hs, h2]
      · simp [loadedVars, hs] at h3 ⊢
        exact h3
      · simp [hs, h4]
      · simp only [List.length_cons] at hl
        exact (h5 (by omega)).cons (by omega) _ _ _
    · refine ⟨ms, ys, ?_, h2, ?_, ?_, fun hl => ?_⟩
      · simp only [writeVars, hw, writeVar_fine hv, hs, h1]
        rfl
      · simp [loadedVars, hs] at h3 ⊢
        exact h3
      · simp [hs, h4]
      · simp only [List.length_cons] at hl
        exact (h5 (by omega)).mono

theorem linked_nil (n : Text) (v : Var V) : writeLinked [] n v = writeVar v := rfl

theorem writeVars_fine {l : List (Text × Var V)} (h : FineVars l) (o : Members (Var V)) (ho : ∀ x ∈ l, writeLinked o x.1 x.2 = writeVar x.2) :
    ∃ ms, writeVars o l 0 = .ok ms ∧ readVars ms = .ok (loadedVars l) ∧ ms.map (·.2) = l.filter (fun x => supported x.2) := by
  obtain ⟨ms, ys, h1, h2, h3, h4, h5⟩ := writeVars_ok o l 0 ho h.2
  refine ⟨ms, h1, ?_, h4⟩
  simp only [readVars, readMapping, h2, visit_ordered (h5 (by have := h.1; omega)).1, h3]

theorem writeArr_fine {a : Arr V} (h : FineArr a) (o : Members (Var V)) (ho : ∀ x ∈ a.coords, writeLinked o x.1 x.2 = writeVar x.2) :
    (supported a.data = false → writeArr o a = .ok none) ∧
    (supported a.data = true → ∃ f, writeArr o a = .ok (some f) ∧ ∀ n, readArr n f = .ok { loadedArr a with name := n }) := by
  obtain ⟨h1, h2, h3, h4⟩ := h
  refine ⟨fun hs => ?_, fun hs => ?_⟩
  · simp only [writeArr, writeVar_fine h1, hs]
    rfl
  · obtain ⟨cs, hc1, hc2, -⟩ := writeVars_fine h2 o ho
    obtain ⟨ms, hm1, hm2, -⟩ := writeVars_fine h3 [] (fun _ _ => rfl)
    obtain ⟨as, ha1, ha2, -⟩ := writeVars_fine h4 [] (fun _ _ => rfl)
    refine ⟨⟨a.data, cs, ms, as⟩, ?_, fun n => ?_⟩
    · simp only [writeArr, writeVar_fine h1, hs, if_true, hc1, hm1, ha1]
    · simp only [readArr, readVar_fine h1 hs, hc2, hm2, ha2]
      rfl

theorem linked_coords {coords : List (Text × Var V)} {ms : Members (Var V)} (hn : (coords.map (·.1)).Nodup)
    (hms : ms.map (·.2) = coords.filter (fun x => supported x.2)) (hf : ∀ x ∈ coords, FineVar x.2) {c : Text × Var V} (hc : c ∈ coords) :
    writeLinked ms c.1 c.2 = writeVar c.2 := by
  have uniq : ∀ m ∈ ms, m.2.1 = c.1 → m.2 = c ∧ supported c.2 = true := by
    intro m hm he
    have h1 : m.2 ∈ coords.filter (fun x => supported x.2) := hms ▸ List.mem_map_of_mem hm
    have h2 := List.mem_filter.1 h1
    have h3 : m.2 = c := List.inj_on_of_nodup_map hn h2.1 hc he
    exact ⟨h3, h3 ▸ h2.2⟩
  unfold writeLinked
  cases hfd : ms.find? (fun m => m.2.1 == c.1) with
  | none => rfl
  | some m =>
    have h1 := List.find?_some hfd
    have h2 := uniq m (List.mem_of_find?_eq_some hfd) (by simpa using h1)
    simp only [writeVar_fine (hf c hc), h2.2, if_true, h2.1]

theorem writeEntries_ok (cs : Members (Var V)) (coords : List (Text × Var V)) (ho : ∀ c ∈ coords, writeLinked cs c.1 c.2 = writeVar c.2)
    (items : List (Text × Arr V)) (i : Nat) (hf : ∀ x ∈ items, FineEntry coords x) (hl : i + items.length ≤ 1000) :
    ∃ ms ys, writeEntries cs items i = .ok ms ∧ readAll readEntry ms = .ok ys ∧ ys.map (·.2) = items.map (fun x => (x.1, loadedArr x.2)) ∧
      Ordered i ys := by
  induction items generalizing i with
  | nil => exact ⟨[], [], rfl, rfl, rfl, Ordered.nil _⟩
  | cons x l ih =>
    obtain ⟨n, a⟩ := x
    simp only [List.length_cons] at hl
    obtain ⟨ms, ys, h1, h2, h3, h4⟩ := ih (i + 1) (fun x hx => hf x (List.mem_cons_of_mem _ hx)) (by omega)
    obtain ⟨f1, f2, f3, f4, f5⟩ := hf _ List.mem_cons_self
    simp only at f1 f2 f3 f4 f5
    obtain ⟨f, g1, g2⟩ := (writeArr_fine f1 cs (fun x hx => ho x (f5 x hx))).2 f2
    refine ⟨(elemName n i, a.name, some f) :: ms, (elemName n i, n, loadedArr a) :: ys, ?_, ?_, ?_, h4.cons (by omega) _ _ _⟩
    · simp only [writeEntries, g1, h1]
    · simp only [readAll, readEntry, f3, f4, if_false, g2, h2]
      rw [show ({ loadedArr a with name := n } : Arr V) = loadedArr a from by rw [← f3]; rfl]
    · simp [h3]

theorem read_setName {n : Node V} {y : Thing V} (h : read n = .ok y) (name : Text) (hr : ∀ m f, n = .array m f → ∃ a : Arr V, ∀ k, readArr k f = .ok { a with name := k }) :
    read (setName name n) = .ok (named name y) := by
  cases n with
  | var v =>
    simp only [read] at h
    cases hv : readVar v with
    | error e => rw [hv] at h; cases h
    | ok w => rw [hv] at h; cases h; simp only [setName, read, hv, named]
  | array m f =>
    obtain ⟨a, ha⟩ := hr m f rfl
    simp only [read, ha] at h
    cases h
    simp only [setName, read, ha, named]
  | dataset cs es =>
    have h0 := h
    simp only [read] at h
    cases hv : readDataset cs es with
    | error e => rw [hv] at h; cases h
    | ok w => rw [hv] at h; cases h; exact h0
  | group ns =>
    have h0 := h
    simp only [read] at h
    cases hv : readNodes ns with
    | error e => rw [hv] at h; cases h
    | ok w => rw [hv] at h; cases h; exact h0

theorem ofList_ordered {ys : Members (Thing V)} {i : Nat} (h : Ordered i ys) : Items.ofList (visit ys) = Items.ofList (ys.map (·.2)) := by
  rw [visit_ordered h.1]

mutual
theorem write_fine : ∀ {x : Thing V}, Fine x →
    (loadedThing x = none ∧ write x = .ok none) ∨
    (∃ n y, loadedThing x = some y ∧ write x = .ok (some n) ∧ read n = .ok y ∧
      ∀ m f, n = .array m f → ∃ a : Arr V, ∀ k, readArr k f = .ok { a with name := k })
  | .var v, h => by
    have hw := writeVar_fine (v := v) (by simpa only [Fine] using h)
    cases hs : supported v with
    | false => left; simp [loadedThing, write, hw, hs]
    | true =>
      right
      refine ⟨.var v, .var (loaded v), ?_, ?_, ?_, fun _ _ h => by cases h⟩
      · simp only [loadedThing, hs, if_true]
      · simp only [write, hw, hs, if_true]
      · simp only [read, readVar_fine (by simpa only [Fine] using h) hs]
  | .array a, h => by
    have hw := writeArr_fine (a := a) (by simpa only [Fine] using h) [] (fun _ _ => rfl)
    cases hs : supported a.data with
    | false => left; simp [loadedThing, write, hw.1 hs, hs]
    | true =>
      right
      obtain ⟨f, g1, g2⟩ := hw.2 hs
      refine ⟨.array a.name f, .array (loadedArr a), ?_, ?_, ?_, fun m f' h => ?_⟩
      · simp only [loadedThing, hs, if_true]
      · simp only [write, g1]
      · simp only [read, g2]; rfl
      · cases h; exact ⟨_, g2⟩
  | .dataset coords items, h => by
    right
    simp only [Fine] at h
    obtain ⟨h1, h2, h3, h4⟩ := h
    obtain ⟨cs, c1, c2, c3⟩ := writeVars_fine h1 [] (fun _ _ => rfl)
    obtain ⟨es, ys, e1, e2, e3, e4⟩ := writeEntries_ok cs coords (fun c hc => linked_coords h2 c3 h1.2 hc) items 0 h4 (by omega)
    refine ⟨.dataset cs es, _, by simp only [loadedThing]; rfl, ?_, ?_, fun _ _ h => by cases h⟩
    · simp only [write, c1, e1]
    · simp only [read, readDataset, c2, readMapping, e2, visit_ordered e4.1, e3]
  | .group items, h => by
    right
    simp only [Fine] at h
    obtain ⟨ns, ys, n1, n2, n3, n4⟩ := writeItems_fine h.2 0 (by omega)
    refine ⟨.group ns, _, by simp only [loadedThing]; rfl, ?_, ?_, fun _ _ h => by cases h⟩
    · simp only [write, n1]
    · simp only [read, n2, ofList_ordered n4, n3]
  | .other, _ => by
    left
    simp [loadedThing, write]
theorem writeItems_fine : ∀ {xs : Items V}, FineItems xs → ∀ i, i + count xs ≤ 1000 →
    ∃ ns ys, writeItems xs i = .ok ns ∧ readNodes ns = .ok ys ∧ Items.ofList (ys.map (·.2)) = loadedItems xs ∧ Ordered i ys
  | .nil, _, i, _ => ⟨.nil, [], by simp only [writeItems], by simp only [readNodes], by simp only [List.map_nil, Items.ofList, loadedItems], Ordered.nil _⟩
  | .cons name x rest, h, i, hl => by
    simp only [FineItems] at h
    simp only [count] at hl
    obtain ⟨ns, ys, n1, n2, n3, n4⟩ := writeItems_fine h.2 (i + 1) (by omega)
    rcases write_fine h.1 with ⟨g1, g2⟩ | ⟨n, y, g1, g2, g3, g4⟩
    · refine ⟨ns, ys, ?_, n2, ?_, n4.mono⟩
      · simp only [writeItems, g2, n1]
      · simp only [loadedItems, g1, n3]
    · refine ⟨.cons (elemName name i) name (setName name n) ns, (elemName name i, name, named name y) :: ys, ?_, ?_, ?_, n4.cons (by omega) _ _ _⟩
      · simp only [writeItems, g2, n1]
      · simp only [readNodes, read_setName g3 name g4, n2]
      · simp only [loadedItems, g1, List.map_cons, Items.ofList, n3]
end

theorem loaded_kept {v : Var V} (h : Kept v) : loaded v = v := by
  unfold loaded
  split
  · rename_i hb
    obtain ⟨k, sh, al, r⟩ := v
    have : al = true := h.2 hb
    subst this
    rfl
  · rfl

theorem supported_kept {v : Var V} (h : Kept v) : supported v = true := by
  simp [supported, h.1]

theorem loadedVars_kept {l : List (Text × Var V)} (h : ∀ x ∈ l, Kept x.2) : loadedVars l = l := by
  unfold loadedVars
  rw [List.filter_eq_self.2 (fun x hx => supported_kept (h x hx))]
  conv_rhs => rw [← List.map_id l]
  exact List.map_congr_left fun x hx => by rw [loaded_kept (h x hx)]; rfl

theorem loadedArr_kept {a : Arr V} (h : KeptArr a) : loadedArr a = a := by
  obtain ⟨h1, h2, h3, h4⟩ := h
  simp only [loadedArr, loaded_kept h1, loadedVars_kept h2, loadedVars_kept h3, loadedVars_kept h4]

theorem named_fits {x : Thing V} {n : Text} (h : NameFits n x) : named n x = x := by
  cases x with
  | array a => simp only [NameFits] at h; subst h; rfl
  | _ => rfl

mutual
theorem loadedThing_kept : ∀ {x : Thing V}, KeptThing x → loadedThing x = some x
  | .var v, h => by
    simp only [KeptThing] at h
    simp only [loadedThing, supported_kept h, if_true, loaded_kept h]
  | .array a, h => by
    simp only [KeptThing] at h
    simp only [loadedThing, supported_kept h.1, if_true, loadedArr_kept h]
  | .dataset coords items, h => by
    simp only [KeptThing] at h
    have : items.map (fun x => (x.1, loadedArr x.2)) = items := by
      conv_rhs => rw [← List.map_id items]
      exact List.map_congr_left fun x hx => by rw [loadedArr_kept (h.2 x hx)]; rfl
    simp only [loadedThing, loadedVars_kept h.1, this]
  | .group items, h => by
    simp only [KeptThing] at h
    simp only [loadedThing, loadedItems_kept h]
  | .other, h => by simp only [KeptThing] at h
theorem loadedItems_kept : ∀ {xs : Items V}, KeptItems xs → loadedItems xs = xs
  | .nil, _ => by simp only [loadedItems]
  | .cons name x rest, h => by
    simp only [KeptItems] at h
    simp only [loadedItems, loadedThing_kept h.1, named_fits h.2.1, loadedItems_kept h.2.2]
end

theorem decimal_chars {n c : Nat} (h : c ∈ decimal n) : 48 ≤ c ∧ c < 58 := by
  simp only [decimal, List.mem_map, List.mem_reverse] at h
  obtain ⟨d, hd, rfl⟩ := h
  have := Nat.digits_lt_base (by norm_num : 1 < 10) hd
  omega

theorem pad3_chars {n c : Nat} (h : c ∈ pad3 n) : 48 ≤ c ∧ c < 58 := by
  rcases List.mem_append.1 h with h | h
  · have := List.eq_of_mem_replicate h
    omega
  · exact decimal_chars h

/-- The number written in decimal. -/
def value (l : Text) : Nat := l.foldl (fun a c => 10 * a + (c - 48)) 0

theorem value_zeros (k : Nat) (l : Text) : value (List.replicate k 48 ++ l) = value l := by
  induction k with
  | zero => rfl
  | succ k ih => rw [List.replicate_succ, List.cons_append]; exact ih

theorem value_decimal (n : Nat) : value (decimal n) = n := by
  conv_rhs => rw [← Nat.ofDigits_digits 10 n]
  unfold value decimal
  rw [List.foldl_map, List.foldl_reverse, Nat.ofDigits_eq_foldr]
  congr 1
  funext a b
  simp
  omega

theorem pad3_inj {i j : Nat} (h : pad3 i = pad3 j) : i = j := by
  have := congrArg value h
  simpa only [pad3, value_zeros, value_decimal] using this

theorem split_at {a b x y : Text} (ha : 95 ∉ a) (hb : 95 ∉ b) (h : a ++ 95 :: x = b ++ 95 :: y) : a = b := by
  induction a generalizing b with
  | nil =>
    cases b with
    | nil => rfl
    | cons c b =>
      simp only [List.nil_append, List.cons_append, List.cons.injEq] at h
      exact absurd (h.1 ▸ List.mem_cons_self) hb
  | cons c a ih =>
    cases b with
    | nil =>
      simp only [List.nil_append, List.cons_append, List.cons.injEq] at h
      exact absurd (h.1 ▸ List.mem_cons_self) ha
    | cons d b =>
      simp only [List.cons_append, List.cons.injEq] at h
      rw [h.1, ih (fun hh => ha (List.mem_cons_of_mem _ hh)) (fun hh => hb (List.mem_cons_of_mem _ hh)) h.2]

theorem elem_inj {a b : Text} {i j : Nat} (h : elemName a i = elemName b j) : i = j := by
  unfold elemName at h
  simp only [List.cons_append, List.nil_append, List.cons.injEq, true_and, List.append_assoc] at h
  refine pad3_inj (split_at (fun hh => ?_) (fun hh => ?_) h)
  · have := pad3_chars hh
    omega
  · have := pad3_chars hh
    omega

theorem elem_chars {a : Text} {i c : Nat} (h : c ∈ elemName a i) : c < 128 ∧ c ≠ 46 ∧ c ≠ 47 := by
  simp only [elemName, List.mem_append, List.mem_flatMap] at h
  rcases h with ((h | h) | h) | ⟨d, -, h⟩
  · simp only [List.mem_cons, List.not_mem_nil, or_false] at h
    omega
  · have := pad3_chars h
    omega
  · simp only [List.mem_cons, List.not_mem_nil, or_false] at h
    omega
  · unfold escape at h
    split at h
    · simp only [List.mem_append, List.mem_cons, List.not_mem_nil, or_false] at h
      rcases h with (h | h) | h
      · omega
      · have := decimal_chars h
        omega
      · omega
    · simp only [List.mem_cons, List.not_mem_nil, or_false] at h
      omega

theorem writeVars_at (l : List (Text × Var V)) (i : Nat) (hf : ∀ x ∈ l, FineVar x.2) (hk : ∀ x ∈ l, Kept x.2) :
    ∃ ms, writeVars [] l i = .ok ms ∧ readAll (fun _ => readVar) ms = .ok ms ∧ ms.map (·.2) = l ∧
      ∀ k x, l[k]? = some x → ms[k]? = some (elemName x.1 (i + k), x) := by
  induction l generalizing i with
  | nil => exact ⟨[], rfl, rfl, rfl, by simp⟩
  | cons x l ih =>
    obtain ⟨n, v⟩ := x
    obtain ⟨ms, h1, h2, h3, h4⟩ := ih (i + 1) (fun x hx => hf x (List.mem_cons_of_mem _ hx)) (fun x hx => hk x (List.mem_cons_of_mem _ hx))
    have hv : FineVar v := hf _ List.mem_cons_self
    have hkv : Kept v := hk _ List.mem_cons_self
    refine ⟨(elemName n i, n, v) :: ms, ?_, ?_, ?_, ?_⟩
    · simp only [writeVars, linked_nil, writeVar_fine hv, supported_kept hkv, if_true, h1]
    · simp only [readAll, readVar_fine hv (supported_kept hkv), loaded_kept hkv, h2]
    · simp [h3]
    · intro k x hx
      cases k with
      | zero => simp at hx; subst hx; rfl
      | succ k =>
        rw [List.getElem?_cons_succ] at hx ⊢
        rw [h4 k x hx, show i + 1 + k = i + (k + 1) from by omega]

theorem map_inj_of_nodup {α β : Type} (f : α → β) {l : List α} (hn : (l.map f).Nodup) : ∀ {s t : List α}, (∀ x ∈ s, x ∈ l) → (∀ x ∈ t, x ∈ l) →
    s.map f = t.map f → s = t
  | [], [], _, _, _ => rfl
  | [], _ :: _, _, _, h => by simp at h
  | _ :: _, [], _, _, h => by simp at h
  | a :: s, b :: t, hs, ht, h => by
    simp only [List.map_cons, List.cons.injEq] at h
    rw [List.inj_on_of_nodup_map hn (hs a List.mem_cons_self) (ht b List.mem_cons_self) h.1,
      map_inj_of_nodup f hn (fun x hx => hs x (List.mem_cons_of_mem _ hx)) (fun x hx => ht x (List.mem_cons_of_mem _ hx)) h.2]

theorem visit_long {l : List (Text × Var V)} {ms : Members (Var V)} (hn : (l.map (·.1)).Nodup) (h3 : ms.map (·.2) = l)
    (h4 : ∀ k x, l[k]? = some x → ms[k]? = some (elemName x.1 (0 + k), x)) (hl : 1000 < l.length) : visit ms ≠ l := by
  intro h
  have hnm : (ms.map (·.2)).Nodup := by rw [h3]; exact List.Nodup.of_map _ hn
  have hs : ms.insertionSort (fun a b => a.1 ≤ b.1) = ms :=
    map_inj_of_nodup (·.2) hnm (fun x hx => (List.mem_insertionSort _).1 hx) (fun _ hx => hx) (by rw [h3]; exact h)
  have hp : ms.Pairwise (fun a b => a.1 ≤ b.1) := by
    rw [← hs]
    exact @List.pairwise_insertionSort _ (fun a b : Text × Text × Var V => a.1 ≤ b.1) _ ⟨fun a b => le_total a.1 b.1⟩ ⟨fun a b c => le_trans⟩ ms
  have h1 := h4 101 l[101] (List.getElem?_eq_getElem (by omega))
  have h2 := h4 1000 l[1000] (List.getElem?_eq_getElem hl)
  obtain ⟨b1, e1⟩ := List.getElem?_eq_some_iff.1 h1
  obtain ⟨b2, e2⟩ := List.getElem?_eq_some_iff.1 h2
  have := List.pairwise_iff_getElem.1 hp 101 1000 b1 b2 (by omega)
  rw [e1, e2] at this
  exact absurd (elem_1000 l[1000].1 l[101].1) (not_lt.2 this)

theorem readAll_error {β γ : Type} {f : Text → β → Except Err γ} {ms : Members β} (h : ∃ m ∈ ms, ∃ e, f m.2.1 m.2.2 = .error e) :
    ∃ e, readAll f ms = .error e := by
  induction ms with
  | nil => obtain ⟨m, hm, -⟩ := h; cases hm
  | cons x ms ih =>
    obtain ⟨a, n, y⟩ := x
    unfold readAll
    cases hf : f n y with
    | error e => exact ⟨e, rfl⟩
    | ok z =>
      obtain ⟨m, hm, e, he⟩ := h
      rcases List.mem_cons.1 hm with rfl | hm
      · rw [hf] at he; cases he
      · obtain ⟨e', h'⟩ := ih ⟨m, hm, e, he⟩
        simp only [h']
        exact ⟨e', rfl⟩

theorem writeEntries_mem {cs : Members (Var V)} {items : List (Text × Arr V)} {i : Nat} {ms : Members (Option (FileArr V))}
    (h : writeEntries cs items i = .ok ms) {x : Text × Arr V} (hx : x ∈ items) :
    ∃ m ∈ ms, m.2.1 = x.2.name ∧ writeArr cs x.2 = .ok m.2.2 := by
  induction items generalizing i ms with
  | nil => cases hx
  | cons y l ih =>
    obtain ⟨n, a⟩ := y
    unfold writeEntries at h
    cases hw : writeArr cs a with
    | error e => rw [hw] at h; cases h
    | ok w =>
      cases hr : writeEntries cs l (i + 1) with
      | error e => rw [hw, hr] at h; cases h
      | ok ms' =>
        rw [hw, hr] at h
        cases h
        rcases List.mem_cons.1 hx with rfl | hx
        · exact ⟨_, List.mem_cons_self, rfl, hw⟩
        · obtain ⟨m, hm, h1⟩ := ih hr hx
          exact ⟨m, List.mem_cons_of_mem _ hm, h1⟩

theorem dataset_error {coords : List (Text × Var V)} {items : List (Text × Arr V)} {x : Text × Arr V} (hx : x ∈ items)
    (h : ∀ cs w, writeArr cs x.2 = .ok w → ∃ e, readEntry x.2.name w = .error e) : ∃ e, saveAndLoad (.dataset coords items) = .error e := by
  unfold saveAndLoad write
  cases hc : writeVars [] coords 0 with
  | error e => exact ⟨e, rfl⟩
  | ok cs =>
    cases he : writeEntries cs items 0 with
    | error e => exact ⟨e, by simp only [he]⟩
    | ok es =>
      obtain ⟨m, hm, h1, h2⟩ := writeEntries_mem he hx
      obtain ⟨e, h3⟩ := h cs _ h2
      obtain ⟨e', h4⟩ := readAll_error (f := readEntry) ⟨m, hm, e, by rw [h1]; exact h3⟩
      simp only [he, read, readDataset, readMapping, h4]
      cases readVars cs with
      | error e => exact ⟨e, rfl⟩
      | ok c => exact ⟨e', rfl⟩

theorem volume_pos {l : List Nat} (h : 0 ∉ l) : 0 < volume l := by
  unfold volume
  have : ∀ a, 0 < a → 0 < l.foldl (· * ·) a := by
    induction l with
    | nil => exact fun a ha => ha
    | cons b l ih =>
      intro a ha
      rw [List.mem_cons, not_or] at h
      exact ih h.2 _ (Nat.mul_pos ha (by omega))
  exact this 1 (by omega)

end Scipp.Hdf5
