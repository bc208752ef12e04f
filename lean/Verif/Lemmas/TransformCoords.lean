import Verif.Spec.TransformCoords
import Mathlib.Data.List.Basic
import Mathlib.Data.List.Nodup
import Mathlib.Tactic.ByContra
/-!
Lemmas about coordinate transformations: the graph.
-/
namespace Scipp.TransformCoords
variable {V : Type}

theorem lookup_mem {β : Type} {l : List (Name × β)} {n : Name} {b : β} (h : l.lookup n = some b) : (n, b) ∈ l := by
  induction l with
  | nil => simp at h
  | cons p l ih =>
    obtain ⟨m, c⟩ := p
    rw [List.lookup_cons] at h
    by_cases hm : n = m
    · subst hm; simp at h; subst h; exact List.mem_cons_self
    · have : (n == m) = false := by simpa using hm
      rw [this] at h
      exact List.mem_cons_of_mem _ (ih h)

theorem lookup_of_mem {β : Type} {l : List (Name × β)} {n : Name} {b : β} (hn : (l.map Prod.fst).Nodup) (h : (n, b) ∈ l) : l.lookup n = some b := by
  induction l with
  | nil => simp at h
  | cons p l ih =>
    obtain ⟨m, c⟩ := p
    rw [List.lookup_cons]
    simp only [List.map_cons, List.nodup_cons] at hn
    rcases List.mem_cons.1 h with h | h
    · cases h; simp
    · have hm : n ≠ m := fun he => hn.1 (he ▸ List.mem_map.2 ⟨_, h, rfl⟩)
      have : (n == m) = false := by simpa using hm
      rw [this]
      exact ih hn.2 h

theorem lookup_none {β : Type} {l : List (Name × β)} {n : Name} (h : l.lookup n = none) : n ∉ l.map Prod.fst := by
  induction l with
  | nil => simp
  | cons p l ih =>
    obtain ⟨m, c⟩ := p
    rw [List.lookup_cons] at h
    by_cases hm : n = m
    · subst hm; simp at h
    · have : (n == m) = false := by simpa using hm
      rw [this] at h
      simp only [List.map_cons, List.mem_cons, not_or]
      exact ⟨hm, ih h⟩

theorem convertFrom_ok : ∀ (rs : List (Rule V)) (i : Nat) (acc t : List (Name × Nat)), convertFrom i rs acc = .ok t → (acc.map Prod.fst).Nodup →
    (t.map Prod.fst).Nodup ∧ (∀ n j, (n, j) ∈ t ↔ (n, j) ∈ acc ∨ ∃ k r, rs[k]? = some r ∧ n ∈ r.outs ∧ j = i + k) ∧ ∀ r ∈ rs, r.outs.Nodup
  | [], i, acc, t, h, hn => by
    simp only [convertFrom, Except.ok.injEq] at h
    subst h
    exact ⟨hn, fun n j => by simp, by simp⟩
  | r :: rs, i, acc, t, h, hn => by
    rw [convertFrom] at h
    split at h
    · rename_i hc
      have hnd : ((acc ++ r.outs.map (·, i)).map Prod.fst).Nodup := by
        rw [List.map_append, List.map_map, List.nodup_append]
        have : (Prod.fst ∘ fun x : Name => (x, i)) = id := rfl
        rw [this, List.map_id]
        refine ⟨hn, hc.1, ?_⟩
        intro a ha b hb he
        exact hc.2 b hb (he ▸ ha)
      obtain ⟨h1, h2, h3⟩ := convertFrom_ok rs (i + 1) _ t h hnd
      refine ⟨h1, ?_, ?_⟩
      · intro n j
        rw [h2, List.mem_append, or_assoc]
        apply or_congr_right
        constructor
        · rintro (hm | ⟨k, r', hk, hr, hj⟩)
          · obtain ⟨m, hm1, hm2⟩ := List.mem_map.1 hm
            cases hm2
            exact ⟨0, r, rfl, hm1, rfl⟩
          · exact ⟨k + 1, r', hk, hr, by omega⟩
        · rintro ⟨k, r', hk, hr, hj⟩
          cases k with
          | zero =>
            simp only [List.getElem?_cons_zero, Option.some.injEq] at hk
            subst hk
            left
            exact List.mem_map.2 ⟨n, hr, by rw [hj]; rfl⟩
          | succ k => exact Or.inr ⟨k, r', hk, hr, by omega⟩
      · intro r' hr'
        rcases List.mem_cons.1 hr' with he | hr'
        · subst he; exact hc.1
        · exact h3 r' hr'
    · cases h

/-- Facts about a graph made from a dict. -/
structure Graph.Good (g : Graph V) : Prop where
  lookup : ∀ n i, g.table.lookup n = some i ↔ g.Provides i n
  unique : ∀ n i j, g.Provides i n → g.Provides j n → i = j
  nodup : ∀ r ∈ g.rules, r.outs.Nodup

theorem make_good {rules : List (Rule V)} {g : Graph V} (h : Graph.make rules = .ok g) : g.Good := by
  unfold Graph.make at h
  split at h
  · cases h
  rename_i t ht
  cases h
  obtain ⟨h1, h2, h3⟩ := convertFrom_ok rules 0 [] t ht (by simp)
  have hl : ∀ n i, t.lookup n = some i ↔ (Graph.mk rules t).Provides i n := by
    intro n i
    constructor
    · intro h
      rcases (h2 n i).1 (lookup_mem h) with h | ⟨k, r, hk, hr, hj⟩
      · simp at h
      · refine ⟨r, ?_, hr⟩
        rw [show i = k by omega]
        exact hk
    · rintro ⟨r, hr, hn⟩
      exact lookup_of_mem h1 ((h2 n i).2 (Or.inr ⟨i, r, hr, hn, by omega⟩))
  refine ⟨hl, ?_, h3⟩
  intro n i j hi hj
  have a := (hl n i).2 hi
  have b := (hl n j).2 hj
  rw [a] at b
  exact Option.some.inj b

theorem mem_outs_user {g : Graph V} {i : Nat} {n : Name} : n ∈ g.outs (.user i) ↔ g.Provides i n := by
  simp only [Graph.outs, Graph.Provides]
  cases g.rules[i]? with
  | none => simp
  | some r => simp

theorem mem_deps_user {g : Graph V} {i : Nat} {d : Name} : d ∈ g.deps (.user i) ↔ ∃ r, g.rules[i]? = some r ∧ d ∈ r.deps := by
  simp only [Graph.deps]
  cases g.rules[i]? with
  | none => simp
  | some r => simp

/-- Remaining work: the dependencies of rules that have not been handled. -/
def todo (g : Graph V) (hs : List Nat) : Nat :=
  (((List.range g.rules.length).filter (fun i => decide (i ∉ hs))).map (fun i => (g.deps (.user i)).length)).sum

theorem todo_aux (f : Nat → Nat) (i : Nat) (hs : List Nat) (hi : i ∉ hs) : ∀ l : List Nat, l.Nodup → i ∈ l →
    ((l.filter (fun j => decide (j ∉ i :: hs))).map f).sum + f i = ((l.filter (fun j => decide (j ∉ hs))).map f).sum
  | [], _, h => by simp at h
  | a :: l, hn, h => by
    simp only [List.nodup_cons] at hn
    by_cases ha : a = i
    · subst ha
      have hsame : l.filter (fun j => decide (j ∉ a :: hs)) = l.filter (fun j => decide (j ∉ hs)) := by
        apply List.filter_congr
        intro j hj
        have : j ≠ a := fun he => hn.1 (he ▸ hj)
        simp [this]
      rw [List.filter_cons, List.filter_cons, hsame]
      simp [hi]
      omega
    · have hm : i ∈ l := by
        rcases List.mem_cons.1 h with h | h
        · exact absurd h.symm ha
        · exact h
      have ih := todo_aux f i hs hi l hn.2 hm
      rw [List.filter_cons, List.filter_cons]
      by_cases hh : a ∈ hs
      · simp only [List.mem_cons, hh, or_true, not_true, decide_false, Bool.false_eq_true, if_false]
        simpa using ih
      · have : a ∉ i :: hs := by simp [ha, hh]
        simp only [this, hh, not_false_eq_true, decide_true, if_true, List.map_cons, List.sum_cons]
        omega

theorem todo_handle {g : Graph V} {hs : List Nat} {i : Nat} (hi : i ∉ hs) (hl : i < g.rules.length) :
    todo g (i :: hs) + (g.deps (.user i)).length = todo g hs := by
  unfold todo
  exact todo_aux (fun i => (g.deps (.user i)).length) i hs hi _ List.nodup_range (List.mem_range.2 hl)

theorem todo_nil (g : Graph V) : todo g [] = (g.rules.map (fun r => r.deps.length)).sum := by
  unfold todo
  rw [List.filter_eq_self.2 (by simp)]
  congr 1
  apply List.ext_getElem
  · simp
  · intro k h1 h2
    simp only [List.length_map, List.length_range] at h1
    simp [Graph.deps, List.getElem?_eq_getElem h1]

/-- Invariant of the loop of `graph_for`. -/
structure LoopInv (g : Graph V) (s : Source V) (targets stack : List Name) (sub : Name → Option Ref) (hs : List Nat) : Prop where
  stackNeeded : ∀ n ∈ stack, g.Needed s targets n
  targetsIn : ∀ n ∈ targets, n ∈ stack ∨ (sub n).isSome
  userIff : ∀ n i, sub n = some (.user i) ↔ i ∈ hs ∧ g.Provides i n
  fetch : ∀ n m, sub n = some (.fetch m) → m = n ∧ g.Needed s targets n ∧ s.has n = true
  used : ∀ i ∈ hs, g.Used s targets i
  depsIn : ∀ i ∈ hs, ∀ d ∈ g.deps (.user i), d ∈ stack ∨ (sub d).isSome

theorem loop_spec {g : Graph V} (hg : g.Good) (s : Source V) (targets : List Name) : ∀ (k : Nat) (stack : List Name) (sub : Name → Option Ref) (hs : List Nat),
    LoopInv g s targets stack sub hs → stack.length + todo g hs < k →
    (∃ sub' hs', g.graphForLoop s k stack sub = .ok sub' ∧ LoopInv g s targets [] sub' hs') ∨
    (g.graphForLoop s k stack sub = .error .notFound ∧ ∃ n, g.Needed s targets n ∧ s.has n = false ∧ ∀ i, ¬ g.Provides i n)
  | 0, stack, sub, hs, _, hk => by omega
  | k + 1, [], sub, hs, hi, _ => Or.inl ⟨sub, hs, rfl, hi⟩
  | k + 1, n :: stack, sub, hs, hi, hk => by
    rw [Graph.graphForLoop]
    simp only [List.length_cons] at hk
    by_cases hsn : (sub n).isSome
    · rw [if_pos hsn]
      refine loop_spec hg s targets k stack sub hs ⟨fun m hm => hi.1 m (List.mem_cons_of_mem _ hm), ?_, hi.3, hi.4, hi.5, ?_⟩ (by omega)
      · intro m hm
        rcases hi.2 m hm with h | h
        · rcases List.mem_cons.1 h with rfl | h
          · exact Or.inr hsn
          · exact Or.inl h
        · exact Or.inr h
      · intro i hii d hd
        rcases hi.6 i hii d hd with h | h
        · rcases List.mem_cons.1 h with rfl | h
          · exact Or.inr hsn
          · exact Or.inl h
        · exact Or.inr h
    · rw [if_neg hsn]
      have hnone : sub n = none := by simpa using hsn
      have hneed := hi.1 n List.mem_cons_self
      unfold Graph.ruleFor
      by_cases hh : s.has n = true
      · rw [if_pos hh]
        dsimp only
        have hmono : ∀ m, m ≠ n → setAll sub (g.outs (.fetch n)) (.fetch n) m = sub m := by
          intro m hm; simp [setAll, Graph.outs, hm]
        have hself : setAll sub (g.outs (.fetch n)) (.fetch n) n = some (.fetch n) := by simp [setAll, Graph.outs]
        have hkeep : ∀ m, m ∈ n :: stack ∨ (sub m).isSome → m ∈ stack ∨ (setAll sub (g.outs (.fetch n)) (.fetch n) m).isSome := by
          intro m hm
          by_cases he : m = n
          · subst he; exact Or.inr (by rw [hself]; rfl)
          · rw [hmono m he]
            rcases hm with h | h
            · exact Or.inl ((List.mem_cons.1 h).resolve_left he)
            · exact Or.inr h
        refine loop_spec hg s targets k _ _ hs ⟨?_, ?_, ?_, ?_, hi.5, ?_⟩ (by simp [Graph.deps]; omega)
        · intro m hm; simp [Graph.deps] at hm; exact hi.1 m (List.mem_cons_of_mem _ hm)
        · intro m hm; simpa [Graph.deps] using hkeep m (hi.2 m hm)
        · intro m i
          by_cases he : m = n
          · subst he
            rw [hself]
            constructor
            · intro h; cases h
            · intro h
              have := (hi.3 m i).2 h
              rw [hnone] at this; cases this
          · rw [hmono m he]; exact hi.3 m i
        · intro m m' hm
          by_cases he : m = n
          · subst he
            rw [hself] at hm
            cases hm
            exact ⟨rfl, hneed, hh⟩
          · rw [hmono m he] at hm; exact hi.4 m m' hm
        · intro i hii d hd; simpa [Graph.deps] using hkeep d (hi.6 i hii d hd)
      · rw [if_neg hh]
        have hf : s.has n = false := by simpa using hh
        cases hl : g.table.lookup n with
        | none =>
          refine Or.inr ⟨rfl, n, hneed, hf, fun i hp => ?_⟩
          rw [(hg.lookup n i).2 hp] at hl; cases hl
        | some i =>
          classical
          dsimp only
          have hp := (hg.lookup n i).1 hl
          obtain ⟨r, hr, hno⟩ := hp
          have hp : g.Provides i n := ⟨r, hr, hno⟩
          have hih : i ∉ hs := by
            intro hii
            have := (hi.3 n i).2 ⟨hii, hp⟩
            rw [hnone] at this; cases this
          have hlt : i < g.rules.length := by
            by_contra hc
            rw [List.getElem?_eq_none (by omega)] at hr; cases hr
          have htodo := todo_handle hih hlt
          have hval : ∀ m, setAll sub (g.outs (.user i)) (.user i) m = if g.Provides i m then some (.user i) else sub m := by
            intro m
            unfold setAll
            by_cases hm : g.Provides i m
            · rw [if_pos (mem_outs_user.2 hm), if_pos hm]
            · rw [if_neg (fun h => hm (mem_outs_user.1 h)), if_neg hm]
          have hkeep : ∀ m, m ∈ n :: stack ∨ (sub m).isSome → m ∈ (g.deps (.user i)).reverse ++ stack ∨ (setAll sub (g.outs (.user i)) (.user i) m).isSome := by
            intro m hm
            rw [hval]
            by_cases hpm : g.Provides i m
            · exact Or.inr (by rw [if_pos hpm]; rfl)
            · rw [if_neg hpm]
              rcases hm with h | h
              · rcases List.mem_cons.1 h with rfl | h
                · exact absurd hp hpm
                · exact Or.inl (List.mem_append_right _ h)
              · exact Or.inr h
          refine loop_spec hg s targets k _ _ (i :: hs) ⟨?_, fun m hm => hkeep m (hi.2 m hm), ?_, ?_, ?_, ?_⟩ ?_
          · intro m hm
            rcases List.mem_append.1 hm with h | h
            · obtain ⟨r', hr', hd⟩ := mem_deps_user.1 (List.mem_reverse.1 h)
              rw [hr] at hr'; cases hr'
              exact .dep hneed hf hr hno hd
            · exact hi.1 m (List.mem_cons_of_mem _ h)
          · intro m j
            rw [hval]
            by_cases hpm : g.Provides i m
            · rw [if_pos hpm]
              constructor
              · intro h; cases h; exact ⟨List.mem_cons_self, hpm⟩
              · rintro ⟨-, hj⟩; rw [hg.unique m i j hpm hj]
            · rw [if_neg hpm, hi.3 m j]
              constructor
              · rintro ⟨h1, h2⟩; exact ⟨List.mem_cons_of_mem _ h1, h2⟩
              · rintro ⟨h1, h2⟩
                rcases List.mem_cons.1 h1 with rfl | h1
                · exact absurd h2 hpm
                · exact ⟨h1, h2⟩
          · intro m m' hm
            rw [hval] at hm
            split at hm
            · cases hm
            · exact hi.4 m m' hm
          · intro j hj
            rcases List.mem_cons.1 hj with rfl | hj
            · exact ⟨n, hneed, hf, hp⟩
            · exact hi.5 j hj
          · intro j hj d hd
            rcases List.mem_cons.1 hj with rfl | hj
            · exact Or.inl (List.mem_append_left _ (List.mem_reverse.2 hd))
            · exact hkeep d (hi.6 j hj d hd)
          · rw [List.length_append, List.length_reverse]; omega

theorem loop_end {g : Graph V} (hg : g.Good) {s : Source V} {targets : List Name} {sub : Name → Option Ref} {hs : List Nat}
    (h : LoopInv g s targets [] sub hs) : g.IsSubgraph s targets sub ∧ ∀ n, g.Needed s targets n → (sub n).isSome := by
  have hdom : ∀ n, g.Needed s targets n → (sub n).isSome := by
    intro n hn
    induction hn with
    | target ht => exact (h.2 _ ht).resolve_left (by simp)
    | @dep n d i r hn hf hr hno hd ih =>
      obtain ⟨ref, href⟩ := Option.isSome_iff_exists.1 ih
      cases ref with
      | fetch m => have := (h.4 n m href).2.2; rw [hf] at this; cases this
      | user j =>
        obtain ⟨hj, hpj⟩ := (h.3 n j).1 href
        have := hg.unique n i j ⟨r, hr, hno⟩ hpj
        subst this
        exact (h.6 i hj d (mem_deps_user.2 ⟨r, hr, hd⟩)).resolve_left (by simp)
  have hused : ∀ i, g.Used s targets i → i ∈ hs := by
    rintro i ⟨m, hm, hf, hp⟩
    obtain ⟨ref, href⟩ := Option.isSome_iff_exists.1 (hdom m hm)
    cases ref with
    | fetch m' => have := (h.4 m m' href).2.2; rw [hf] at this; cases this
    | user j =>
      obtain ⟨hj, hpj⟩ := (h.3 m j).1 href
      rw [hg.unique m i j hp hpj]; exact hj
  refine ⟨⟨?_, ?_⟩, hdom⟩
  · intro n i
    rw [h.3]
    exact ⟨fun ⟨a, b⟩ => ⟨h.5 i a, b⟩, fun ⟨a, b⟩ => ⟨hused i a, b⟩⟩
  · intro n m
    constructor
    · intro hm
      obtain ⟨a, b, c⟩ := h.4 n m hm
      refine ⟨a, b, c, fun i hu hp => ?_⟩
      have := (h.3 n i).2 ⟨hused i hu, hp⟩
      rw [hm] at this; cases this
    · rintro ⟨rfl, hn, hh, hno⟩
      obtain ⟨ref, href⟩ := Option.isSome_iff_exists.1 (hdom m hn)
      cases ref with
      | fetch m' => rw [href, (h.4 m m' href).1]
      | user j =>
        obtain ⟨hj, hpj⟩ := (h.3 m j).1 href
        exact absurd hpj (hno j (h.5 j hj))

theorem graphFor_spec {g : Graph V} (hg : g.Good) (s : Source V) (targets : List Name) :
    (∃ sub, g.graphFor s targets = .ok sub ∧ g.IsSubgraph s targets sub ∧ ∀ n, g.Needed s targets n → (sub n).isSome) ∨
    (g.graphFor s targets = .error .notFound ∧ ∃ n, g.Needed s targets n ∧ s.has n = false ∧ ∀ i, ¬ g.Provides i n) := by
  have hinit : LoopInv g s targets targets (fun _ => none) [] :=
    ⟨fun n hn => .target hn, fun n hn => Or.inl hn, by simp, by simp, by simp, by simp⟩
  rcases loop_spec hg s targets (g.rounds targets) targets (fun _ => none) [] hinit (by rw [todo_nil]; unfold Graph.rounds; omega) with ⟨sub, hs, h1, h2⟩ | h
  · exact Or.inl ⟨sub, h1, loop_end hg h2⟩
  · exact Or.inr h

end Scipp.TransformCoords
