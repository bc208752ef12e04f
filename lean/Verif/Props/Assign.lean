import Verif.Model.Assign
import Mathlib.Data.List.Basic
/-!
C133: new objects with assigned metadata.
-/
namespace Scipp.Props
open Scipp Scipp.Assign

theorem assign_lookup_insert {V : Type} (k j : Nat) (v : V) (l : List (Nat × V)) : (insertOrAssign k v l).lookup j = if j = k then some v else l.lookup j := by
  induction l with
  | nil =>
    by_cases h : j = k
    · subst h; simp [insertOrAssign]
    · have hb : (j == k) = false := by simpa using h
      simp [insertOrAssign, List.lookup, h, hb]
  | cons p l ih =>
    obtain ⟨i, w⟩ := p
    by_cases hi : i = k
    · subst hi
      by_cases h : j = i
      · subst h; simp [insertOrAssign]
      · have hb : (j == i) = false := by simpa using h
        simp [insertOrAssign, List.lookup, h, hb]
    · rw [insertOrAssign, if_neg hi]
      by_cases h : j = i
      · subst h
        simp [List.lookup, hi]
      · have hb : (j == i) = false := by simpa using h
        simp only [List.lookup, hb]
        exact ih

theorem assign_lookup_none {V : Type} (k : Nat) (l : List (Nat × V)) (h : k ∉ l.map Prod.fst) : l.lookup k = none := by
  induction l with
  | nil => rfl
  | cons p l ih =>
    simp only [List.map_cons, List.mem_cons, not_or] at h
    have hb : (k == p.1) = false := by simpa using h.1
    simp only [List.lookup, hb]
    exact ih h.2

/-- A successful or failed `set` of a writable dict. -/
theorem assign_meta_set {S V : Type} [DecidableEq V] (fits : S → V → Except Err Unit) (m : Meta S V) (hw : m.readonly = false) (k : Nat) (v : V) :
    (∀ m', m.set fits k v = .ok m' → (m.entries.lookup k = some v ∨ fits m.sizes v = .ok ()) ∧ m'.sizes = m.sizes ∧ m'.readonly = false ∧ ∀ j, m'.entries.lookup j = if j = k then some v else m.entries.lookup j) ∧
    (∀ e, m.set fits k v = .error e → m.entries.lookup k ≠ some v ∧ fits m.sizes v = .error e) := by
  unfold Meta.set
  by_cases hl : m.entries.lookup k = some v
  · rw [if_pos hl]
    refine ⟨fun m' h => ?_, fun e h => by cases h⟩
    rw [← Except.ok.inj h]
    refine ⟨Or.inl hl, rfl, hw, fun j => ?_⟩
    by_cases hj : j = k
    · rw [if_pos hj, hj, hl]
    · rw [if_neg hj]
  · rw [if_neg hl, hw, if_neg (by simp)]
    cases hf : fits m.sizes v with
    | error e => exact ⟨fun m' h => (by cases h), fun e' h => ⟨hl, by cases h; rfl⟩⟩
    | ok u =>
      cases u
      refine ⟨fun m' h => ?_, fun e h => by cases h⟩
      rw [← Except.ok.inj h]
      exact ⟨Or.inr rfl, rfl, rfl, fun j => assign_lookup_insert k j v m.entries⟩

/-- The loop changes one dict only. -/
theorem assign_frame {S V : Type} [DecidableEq V] (fits : S → V → Except Err Unit) (r : Nat) (l : List (Nat × V)) :
    ∀ (h : List (Meta S V)) (i : Nat), i ≠ r → (setAll fits r h l).1[i]? = h[i]? := by
  induction l with
  | nil => intro h i _; rfl
  | cons p l ih =>
    intro h i hi
    obtain ⟨k, v⟩ := p
    rw [setAll]
    split
    · rfl
    · split
      · rfl
      · rw [ih _ i hi, List.getElem?_set_ne (fun e => hi e.symm)]

theorem assign_setAll {S V : Type} [DecidableEq V] (fits : S → V → Except Err Unit) (r : Nat) (l : List (Nat × V)) :
    ∀ (h : List (Meta S V)) (m : Meta S V), h[r]? = some m → m.readonly = false → (l.map Prod.fst).Nodup →
      ((setAll fits r h l).2 = .ok () → (∀ p ∈ l, m.entries.lookup p.1 = some p.2 ∨ fits m.sizes p.2 = .ok ()) ∧
        ∃ m', (setAll fits r h l).1[r]? = some m' ∧ m'.sizes = m.sizes ∧ m'.readonly = false ∧ ∀ k, m'.entries.lookup k = (l.lookup k).or (m.entries.lookup k)) ∧
      (∀ e, (setAll fits r h l).2 = .error e → ∃ p ∈ l, m.entries.lookup p.1 ≠ some p.2 ∧ fits m.sizes p.2 = .error e) := by
  induction l with
  | nil =>
    intro h m hm hw _
    exact ⟨fun _ => ⟨fun p hp => by simp at hp, m, hm, rfl, hw, fun k => rfl⟩, fun e he => by cases he⟩
  | cons p l ih =>
    intro h m hm hw hn
    obtain ⟨k, v⟩ := p
    simp only [List.map_cons, List.nodup_cons] at hn
    have hr : r < h.length := by
      rcases Nat.lt_or_ge r h.length with hlt | hge
      · exact hlt
      · rw [List.getElem?_eq_none hge] at hm; cases hm
    obtain ⟨hok, herr⟩ := assign_meta_set fits m hw k v
    rw [setAll, hm]
    simp only
    cases hs : m.set fits k v with
    | error e =>
      simp only
      exact ⟨fun h => (by cases h), fun e' he => ⟨(k, v), List.mem_cons_self, by cases he; exact herr e hs⟩⟩
    | ok m1 =>
      simp only
      obtain ⟨h1, h2, h3, h4⟩ := hok m1 hs
      obtain ⟨i1, i2⟩ := ih (h.set r m1) m1 (by rw [List.getElem?_set_self hr]) h3 hn.2
      have hne : ∀ p ∈ l, m1.entries.lookup p.1 = m.entries.lookup p.1 := by
        intro p hp
        have : p.1 ≠ k := fun e => hn.1 (e ▸ List.mem_map_of_mem hp)
        rw [h4, if_neg this]
      refine ⟨fun hr' => ?_, fun e he => ?_⟩
      · obtain ⟨j1, m', j2, j3, j4, j5⟩ := i1 hr'
        refine ⟨?_, m', j2, j3.trans h2, j4, fun x => ?_⟩
        · intro p hp
          rcases List.mem_cons.1 hp with rfl | hp
          · exact h1
          · have := j1 p hp
            rwa [hne p hp, h2] at this
        · rw [j5, h4]
          by_cases hx : x = k
          · subst hx
            rw [assign_lookup_none x l hn.1]
            simp
          · have hb : (x == k) = false := by simpa using hx
            rw [if_neg hx]
            simp only [List.lookup, hb]
      · obtain ⟨p, hp, j1, j2⟩ := i2 e he
        refine ⟨p, List.mem_cons_of_mem _ hp, ?_, ?_⟩
        · rwa [hne p hp] at j1
        · rwa [h2] at j2

/-- Names in both dicts. -/
def c133Overlap {V : Type} (pos : Option (List (Nat × V))) (kw : List (Nat × V)) : Prop := ∃ k, k ∈ (pos.getD []).map Prod.fst ∧ k ∈ kw.map Prod.fst

theorem assign_combine {V : Type} (pos : Option (List (Nat × V))) (kw : List (Nat × V)) :
    (c133Overlap pos kw → combine pos kw = .error .invalidArgument) ∧ (¬ c133Overlap pos kw → combine pos kw = .ok (pos.getD [] ++ kw)) := by
  have hiff : (pos.getD []).any (fun p => kw.any (fun q => q.1 == p.1)) = true ↔ c133Overlap pos kw := by
    unfold c133Overlap
    simp only [List.any_eq_true, List.mem_map, beq_iff_eq]
    constructor
    · rintro ⟨p, hp, q, hq, e⟩
      exact ⟨p.1, ⟨p, hp, rfl⟩, q, hq, e⟩
    · rintro ⟨k, ⟨p, hp, e1⟩, q, hq, e2⟩
      exact ⟨p, hp, q, hq, e2.trans e1.symm⟩
  unfold combine
  constructor
  · intro h
    rw [if_pos (hiff.2 h)]
  · intro h
    rw [if_neg (fun hc => h (hiff.1 hc))]

/-- A data array whose references are valid. -/
def c133Valid {S V : Type} (h : List (Meta S V)) (o : Obj) : Prop := ∀ w, o.ref w < h.length

theorem assign_shallow {S V : Type} (h : List (Meta S V)) (o : Obj) (hv : c133Valid h o) :
    ∃ h1 out, shallow h o = some (h1, out) ∧ (∀ i, i < h.length → h1[i]? = h[i]?) ∧ (∀ w, h.length ≤ out.ref w) ∧ (∀ w w', out.ref w = out.ref w' → w = w') ∧
      ∀ w, ∃ m, h[o.ref w]? = some m ∧ h1[out.ref w]? = some m.copy := by
  have hc := hv .coords
  have hm := hv .masks
  have ha := hv .attrs
  simp only [Obj.ref] at hc hm ha
  refine ⟨h ++ [h[o.coords].copy, h[o.masks].copy, h[o.attrs].copy], ⟨h.length, h.length + 1, h.length + 2⟩, ?_, ?_, ?_, ?_, ?_⟩
  · unfold shallow
    rw [List.getElem?_eq_getElem hc, List.getElem?_eq_getElem hm, List.getElem?_eq_getElem ha]
  · intro i hi
    exact List.getElem?_append_left hi
  · intro w
    cases w <;> simp [Obj.ref]
  · intro w w'
    cases w <;> cases w' <;> simp [Obj.ref]
  · intro w
    cases w
    · exact ⟨_, List.getElem?_eq_getElem hc, by simp [Obj.ref]⟩
    · exact ⟨_, List.getElem?_eq_getElem hm, by simp [Obj.ref]⟩
    · exact ⟨_, List.getElem?_eq_getElem ha, by simp [Obj.ref]⟩

/-- **C133** No existing object is changed, whether the assignment succeeds or not. -/
theorem C133_original {S V : Type} [DecidableEq V] (fits : S → V → Except Err Unit) (h : List (Meta S V)) (o : Obj) (name : Which) (pos : Option (List (Nat × V))) (kw : List (Nat × V)) (i : Nat) (hi : i < h.length) :
    (assign fits h o name pos kw).1[i]? = h[i]? := by
  unfold assign
  split
  · rfl
  · rename_i h1 out hs
    have hv : c133Valid h o := by
      unfold shallow at hs
      split at hs
      · rename_i c m a hc hm ha
        intro w
        cases w
        · exact (List.getElem?_eq_some_iff.1 hc).1
        · exact (List.getElem?_eq_some_iff.1 hm).1
        · exact (List.getElem?_eq_some_iff.1 ha).1
      · cases hs
    obtain ⟨h1', out', hs', hk, hge, _, _⟩ := assign_shallow h o hv
    rw [hs] at hs'
    cases hs'
    split
    · exact hk i hi
    · rename_i items hc
      have hf := assign_frame fits (out.ref name) items h1 i (by have := hge name; omega)
      split
      · rename_i h2 e he
        rw [he] at hf
        exact hf.trans (hk i hi)
      · rename_i h2 he
        rw [he] at hf
        exact hf.trans (hk i hi)

/-- What `assign` does when names are distinct. -/
theorem assign_eq {S V : Type} [DecidableEq V] (fits : S → V → Except Err Unit) (h h1 : List (Meta S V)) (o out : Obj) (name : Which) (pos : Option (List (Nat × V))) (kw : List (Nat × V))
    (hs : shallow h o = some (h1, out)) (hd : ¬ c133Overlap pos kw) :
    (assign fits h o name pos kw).1 = (setAll fits (out.ref name) h1 (pos.getD [] ++ kw)).1 ∧
    (∀ e, (assign fits h o name pos kw).2 = .error e ↔ (setAll fits (out.ref name) h1 (pos.getD [] ++ kw)).2 = .error e) ∧
    (∀ r, (assign fits h o name pos kw).2 = .ok r ↔ r = out ∧ (setAll fits (out.ref name) h1 (pos.getD [] ++ kw)).2 = .ok ()) := by
  unfold assign
  rw [hs, (assign_combine pos kw).2 hd]
  simp only
  split
  · rename_i h2 e he
    rw [he]
    exact ⟨rfl, fun e' => by simp, fun r => by simp⟩
  · rename_i h2 he
    rw [he]
    exact ⟨rfl, fun e' => by simp, fun r => ⟨fun hr => ⟨(Except.ok.inj hr).symm, rfl⟩, fun hr => by rw [hr.1]⟩⟩

theorem c133_nodup {V : Type} (pos : Option (List (Nat × V))) (kw : List (Nat × V)) (h1 : ((pos.getD []).map Prod.fst).Nodup) (h2 : (kw.map Prod.fst).Nodup) (hd : ¬ c133Overlap pos kw) :
    ((pos.getD [] ++ kw).map Prod.fst).Nodup := by
  rw [List.map_append, List.nodup_append]
  exact ⟨h1, h2, fun a ha b hb e => hd ⟨a, ha, e ▸ hb⟩⟩

theorem c133_lookup_append {V : Type} (a b : List (Nat × V)) (k : Nat) : (a ++ b).lookup k = (a.lookup k).or (b.lookup k) := by
  induction a with
  | nil => rfl
  | cons p a ih =>
    cases hb : k == p.1 with
    | true => simp [List.lookup, hb]
    | false =>
      simp only [List.cons_append, List.lookup, hb]
      exact ih

/-- **C133** The result: new dicts, which nothing else refers to; the named one has the given entries, those from the dict and those by keyword, and the others of the input; the other dicts have the entries of the input. All are writable, also if those of the input are not. -/
theorem C133_assigned {S V : Type} [DecidableEq V] (fits : S → V → Except Err Unit) (h : List (Meta S V)) (o : Obj) (name : Which) (pos : Option (List (Nat × V))) (kw : List (Nat × V)) (r : Obj) (hv : c133Valid h o)
    (h1 : ((pos.getD []).map Prod.fst).Nodup) (h2 : (kw.map Prod.fst).Nodup) (hr : (assign fits h o name pos kw).2 = .ok r) :
    ∀ w, h.length ≤ r.ref w ∧ ∃ m m', h[o.ref w]? = some m ∧ (assign fits h o name pos kw).1[r.ref w]? = some m' ∧ m'.sizes = m.sizes ∧ m'.readonly = false ∧
      ∀ k, m'.entries.lookup k = if w = name then (((pos.getD []).lookup k).or (kw.lookup k)).or (m.entries.lookup k) else m.entries.lookup k := by
  obtain ⟨h1', out, hs, hk, hge, hinj, hcopy⟩ := assign_shallow h o hv
  by_cases hd : c133Overlap pos kw
  · unfold assign at hr
    rw [hs, (assign_combine pos kw).1 hd] at hr
    cases hr
  · obtain ⟨e1, _, e3⟩ := assign_eq fits h h1' o out name pos kw hs hd
    obtain ⟨rfl, hok⟩ := (e3 r).1 hr
    intro w
    refine ⟨hge w, ?_⟩
    obtain ⟨m, hm, hm1⟩ := hcopy w
    rw [e1]
    by_cases hw : w = name
    · subst hw
      obtain ⟨_, m', j1, j2, j3, j4⟩ := (assign_setAll fits (r.ref w) (pos.getD [] ++ kw) h1' m.copy hm1 rfl (c133_nodup pos kw h1 h2 hd)).1 hok
      refine ⟨m, m', hm, j1, j2, j3, fun k => ?_⟩
      rw [if_pos rfl, j4, c133_lookup_append]
      rfl
    · refine ⟨m, m.copy, hm, ?_, rfl, rfl, fun k => ?_⟩
      · rw [assign_frame fits _ _ _ _ (fun e => hw (hinj _ _ e)), hm1]
      · rw [if_neg hw]
        rfl

/-- **C133** It succeeds exactly if no name is given twice, and every value is that of the input or fits. -/
theorem C133_succeeds {S V : Type} [DecidableEq V] (fits : S → V → Except Err Unit) (h : List (Meta S V)) (o : Obj) (name : Which) (pos : Option (List (Nat × V))) (kw : List (Nat × V)) (m : Meta S V) (hv : c133Valid h o)
    (hm : h[o.ref name]? = some m) (h1 : ((pos.getD []).map Prod.fst).Nodup) (h2 : (kw.map Prod.fst).Nodup) :
    (∃ r, (assign fits h o name pos kw).2 = .ok r) ↔ ¬ c133Overlap pos kw ∧ ∀ p ∈ pos.getD [] ++ kw, m.entries.lookup p.1 = some p.2 ∨ fits m.sizes p.2 = .ok () := by
  obtain ⟨h1', out, hs, hk, hge, hinj, hcopy⟩ := assign_shallow h o hv
  by_cases hd : c133Overlap pos kw
  · refine ⟨fun ⟨r, hr⟩ => ?_, fun hc => absurd hd hc.1⟩
    unfold assign at hr
    rw [hs, (assign_combine pos kw).1 hd] at hr
    cases hr
  · obtain ⟨e1, e2, e3⟩ := assign_eq fits h h1' o out name pos kw hs hd
    obtain ⟨m0, hm0, hm1⟩ := hcopy name
    rw [hm] at hm0
    cases hm0
    obtain ⟨s1, s2⟩ := assign_setAll fits (out.ref name) (pos.getD [] ++ kw) h1' m.copy hm1 rfl (c133_nodup pos kw h1 h2 hd)
    constructor
    · rintro ⟨r, hr⟩
      exact ⟨hd, (s1 ((e3 r).1 hr).2).1⟩
    · rintro ⟨_, hall⟩
      cases hres : (setAll fits (out.ref name) h1' (pos.getD [] ++ kw)).2 with
      | ok u => cases u; exact ⟨out, (e3 out).2 ⟨rfl, hres⟩⟩
      | error e =>
        obtain ⟨p, hp, n1, n2⟩ := s2 e hres
        rcases hall p hp with hl | hf
        · exact absurd hl n1
        · have hn2 : fits m.sizes p.2 = .error e := n2
          rw [hf] at hn2
          cases hn2

/-- **C133** A name given twice is an error. -/
theorem C133_rejects {S V : Type} [DecidableEq V] (fits : S → V → Except Err Unit) (h : List (Meta S V)) (o : Obj) (name : Which) (pos : Option (List (Nat × V))) (kw : List (Nat × V)) (hv : c133Valid h o) (hd : c133Overlap pos kw) :
    (assign fits h o name pos kw).2 = .error .invalidArgument := by
  obtain ⟨h1', out, hs, _⟩ := assign_shallow h o hv
  unfold assign
  rw [hs, (assign_combine pos kw).1 hd]

/-! Cases: values are numbers, those not above the size fit; the dicts are read-only. -/

def c133Fits (s : Nat) (v : Nat) : Except Err Unit := if v ≤ s then .ok () else .error .dimension

def c133Heap : List (Meta Nat Nat) := [⟨5, [(1, 4), (2, 9)], true⟩, ⟨5, [], true⟩, ⟨5, [(7, 1)], true⟩]

theorem c133_valid : c133Valid c133Heap ⟨0, 1, 2⟩ := by intro w; cases w <;> decide

theorem c133_assign : assign c133Fits c133Heap ⟨0, 1, 2⟩ .coords (some [(1, 3), (2, 9)]) [(6, 5)] = (c133Heap ++ [⟨5, [(1, 3), (2, 9), (6, 5)], false⟩, ⟨5, [], false⟩, ⟨5, [(7, 1)], false⟩], .ok ⟨3, 4, 5⟩) := by decide

example := C133_assigned c133Fits c133Heap ⟨0, 1, 2⟩ .coords (some [(1, 3), (2, 9)]) [(6, 5)] ⟨3, 4, 5⟩ c133_valid (by decide) (by decide) (by rw [c133_assign])

example := (C133_succeeds c133Fits c133Heap ⟨0, 1, 2⟩ .coords (some [(1, 3), (2, 9)]) [(6, 5)] ⟨5, [(1, 4), (2, 9)], true⟩ c133_valid rfl (by decide) (by decide)).1 ⟨⟨3, 4, 5⟩, by rw [c133_assign]⟩

/-- An error after a first assignment: the input is as before. -/
example : (assign c133Fits c133Heap ⟨0, 1, 2⟩ .coords (some [(1, 3), (2, 8)]) []).2 = .error .dimension := by decide

example := C133_original c133Fits c133Heap ⟨0, 1, 2⟩ .coords (some [(1, 3), (2, 8)]) [] 0 (by decide)

example := C133_rejects c133Fits c133Heap ⟨0, 1, 2⟩ .masks (some [(1, 3)]) [(6, 1), (1, 3)] c133_valid ⟨1, by decide, by decide⟩

end Scipp.Props
