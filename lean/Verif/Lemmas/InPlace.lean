import Verif.Model.InPlace
/-! Lemmas about in-place operations: what a passed check implies, and what is left unchanged. -/
namespace Scipp.InPlace
open Scipp

variable {U D : Type} [DecidableEq U]

/-- All checks of the operation pass. -/
def Passes (op : Op U D) (a b : Ref) (st : State U D) : Prop :=
  ∃ u, checks op a b (st.heap a.obj).unit (st.heap b.obj).unit = .ok u

/-- State after the operation was carried out, with new unit `u`. -/
def after (op : Op U D) (a b : Ref) (u : U) (st : State U D) : State U D :=
  { st with heap := Function.update st.heap a.obj ⟨u, op.data a b st.heap⟩ }

omit [DecidableEq U] in
theorem andThen_ok {r : Res U D} {f : State U D → Res U D} {x : State U D} (h : andThen r f = .ok x) :
    ∃ y, r = .ok y ∧ f y = .ok x := by
  cases r with
  | error e => simp [andThen] at h
  | ok y => exact ⟨y, rfl, h⟩

omit [DecidableEq U] in
theorem andThen_error {r : Res U D} {f : State U D → Res U D} {x} (h : andThen r f = .error x) :
    r = .error x ∨ ∃ y, r = .ok y ∧ f y = .error x := by
  cases r with
  | error e => left; simpa [andThen] using h
  | ok y => exact .inr ⟨y, rfl, h⟩

omit [DecidableEq U] in
theorem check_ok {st x : State U D} {b : Bool} {e} (h : check st b e = .ok x) : b = true ∧ x = st := by
  unfold check at h; split at h
  · rename_i hb; exact ⟨hb, by simpa using h.symm⟩
  · simp at h

omit [DecidableEq U] in
theorem check_error {st x : State U D} {b : Bool} {e e'} (h : check st b e = .error (e', x)) : x = st := by
  unfold check at h; split at h
  · simp at h
  · simp at h; exact h.2.symm

omit [DecidableEq U] in
@[simp] theorem check_true (st : State U D) (e) : check st true e = .ok st := rfl

theorem checks_unit {op : Op U D} {a b : Ref} {ua ub u : U} (h : checks op a b ua ub = .ok u) :
    a.readonly = false ∧ (ua = u ∨ a.slice_ = false) ∧ op.unit ua ub = .ok u := by
  unfold checks at h
  split at h
  · simp at h
  · split at h
    · simp at h
    · split at h
      · simp at h
      · rename_i v hv
        by_cases h1 : ua ≠ v ∧ a.slice_ = true
        · rw [if_pos h1] at h; simp at h
        · rw [if_neg h1] at h
          by_cases h2 : op.types a.dtype b.dtype = false
          · rw [if_pos h2] at h; simp at h
          · rw [if_neg h2] at h
            by_cases h3 : a.readonly = true
            · rw [if_pos h3] at h; simp at h
            · rw [if_neg h3] at h
              split at h
              · simp at h
              · split at h
                · simp at h
                · simp only [Except.ok.injEq] at h
                  subst h
                  refine ⟨by simpa using h3, ?_, hv⟩
                  by_cases hu : ua = v
                  · exact .inl hu
                  · right
                    cases hs : a.slice_
                    · rfl
                    · exact absurd ⟨hu, hs⟩ h1

theorem transform_ok_of {op : Op U D} {a b : Ref} {st : State U D} {u : U}
    (h : checks op a b (st.heap a.obj).unit (st.heap b.obj).unit = .ok u)
    (hb : (decide ((st.heap a.obj).unit = u) || !a.bufSlice) = true) :
    transformInPlace false op a b st = .ok (after op a b u st) := by
  obtain ⟨hr, hu, -⟩ := checks_unit h
  unfold transformInPlace
  rw [h]
  simp only [Bool.false_eq_true, ↓reduceIte, setUnit, hr, Bool.not_false, check_true, andThen]
  have : ((st.setData a.obj (op.data a b st.heap)).heap a.obj).unit = (st.heap a.obj).unit := by
    simp [State.setData]
  rw [this, hb]
  simp [check, State.setUnit, State.setData, after]

/-- If the checks pass, the operation is carried out. -/
theorem transform_ok {op : Op U D} {a b : Ref} {st : State U D} {u : U}
    (h : checks op a b (st.heap a.obj).unit (st.heap b.obj).unit = .ok u)
    (hs : a.bufSlice = true → a.slice_ = true) :
    transformInPlace false op a b st = .ok (after op a b u st) := by
  obtain ⟨hr, hu, -⟩ := checks_unit h
  refine transform_ok_of h ?_
  rcases hu with hu | hu
  · simp [hu]
  · cases hc : a.bufSlice
    · simp
    · rw [hs hc] at hu; simp at hu

/-- A failing operation has not changed anything. -/
theorem transform_error {op : Op U D} {dry : Bool} {a b : Ref} {st st' : State U D} {e : Err}
    (hs : a.bufSlice = true → a.slice_ = true)
    (h : transformInPlace dry op a b st = .error (e, st')) :
    st' = st ∧ checks op a b (st.heap a.obj).unit (st.heap b.obj).unit = .error e := by
  cases hc : checks op a b (st.heap a.obj).unit (st.heap b.obj).unit with
  | error e' =>
    unfold transformInPlace at h; rw [hc] at h
    simp only [Except.error.injEq, Prod.mk.injEq] at h
    exact ⟨h.2.symm, by rw [h.1]⟩
  | ok u =>
    cases dry with
    | false => rw [transform_ok hc hs] at h; simp at h
    | true => simp [transformInPlace, hc] at h

/-- A dry run fails without changing anything, or passes. -/
theorem dry_error {op : Op U D} {a b : Ref} {st st' : State U D} {e : Err}
    (h : transformInPlace true op a b st = .error (e, st')) : st' = st := by
  unfold transformInPlace at h
  split at h
  · simp only [Except.error.injEq, Prod.mk.injEq] at h; exact h.2.symm
  · simp at h

theorem dry_ok {op : Op U D} {a b : Ref} {st st' : State U D}
    (h : transformInPlace true op a b st = .ok st') : st' = st ∧ Passes op a b st := by
  unfold transformInPlace at h
  split at h
  · simp at h
  · rename_i u hu
    simp only [↓reduceIte, Except.ok.injEq] at h
    exact ⟨h.symm, u, hu⟩

theorem Passes.congr {op : Op U D} {a b : Ref} {st st' : State U D} (h : Passes op a b st)
    (ha : (st'.heap a.obj).unit = (st.heap a.obj).unit) (hb : (st'.heap b.obj).unit = (st.heap b.obj).unit) :
    Passes op a b st' := by
  obtain ⟨u, hu⟩ := h
  exact ⟨u, by rw [ha, hb]; exact hu⟩

omit [DecidableEq U] in
/-- `forAll` of checks: an error leaves the state, success means that all checks passed. -/
theorem forAll_checks {α : Type} {f : α → State U D → Res U D} {Q : α → State U D → Prop}
    (he : ∀ x st e st', f x st = .error (e, st') → st' = st)
    (ho : ∀ x st st', f x st = .ok st' → st' = st ∧ Q x st) (l : List α) (st : State U D) :
    (∀ e st', forAll f l st = .error (e, st') → st' = st) ∧
    (∀ st', forAll f l st = .ok st' → st' = st ∧ ∀ x ∈ l, Q x st) := by
  induction l with
  | nil => exact ⟨by simp [forAll], by simp [forAll]⟩
  | cons x l ih =>
    refine ⟨?_, ?_⟩
    · intro e st' h
      rcases andThen_error h with h | ⟨y, hy, h2⟩
      · exact he _ _ _ _ h
      · obtain ⟨rfl, -⟩ := ho _ _ _ hy
        exact ih.1 _ _ h2
    · intro st' h
      obtain ⟨y, hy, h2⟩ := andThen_ok h
      obtain ⟨rfl, hq⟩ := ho _ _ _ hy
      obtain ⟨rfl, hl⟩ := ih.2 _ h2
      exact ⟨rfl, by simpa using ⟨hq, hl⟩⟩

omit [DecidableEq U] in
@[simp] theorem after_arrays (op : Op U D) (a b : Ref) (u : U) (st : State U D) :
    (after op a b u st).arrays = st.arrays := rfl

omit [DecidableEq U] in
@[simp] theorem after_next (op : Op U D) (a b : Ref) (u : U) (st : State U D) :
    (after op a b u st).next = st.next := rfl

omit [DecidableEq U] in
theorem after_heap_ne (op : Op U D) (a b : Ref) (u : U) (st : State U D) {k : Nat} (h : k ≠ a.obj) :
    (after op a b u st).heap k = st.heap k := by
  simp [after, Function.update_of_ne h]

omit [DecidableEq U] in
@[simp] theorem after_heap_self (op : Op U D) (a b : Ref) (u : U) (st : State U D) :
    (after op a b u st).heap a.obj = ⟨u, op.data a b st.heap⟩ := by
  simp [after]

/-- A list of operations all of whose checks passed beforehand, no target of which is target or
operand of a later one: all are carried out. -/
theorem forAll_transform_ok {α : Type} {op : Op U D} (ta tb : α → Ref)
    (l : List α) (st : State U D) (hp : ∀ x ∈ l, Passes op (ta x) (tb x) st)
    (hs : ∀ x ∈ l, (ta x).bufSlice = true → (ta x).slice_ = true)
    (hd : (∀ u v w, op.unit u v = .ok w → w = u) ∨
      l.Pairwise (fun x y => (ta x).obj ≠ (ta y).obj ∧ (ta x).obj ≠ (tb y).obj)) :
    ∃ st', forAll (fun x => transformInPlace false op (ta x) (tb x)) l st = .ok st' ∧
      st'.arrays = st.arrays ∧ st'.next = st.next ∧
      (∀ k, (∀ x ∈ l, k ≠ (ta x).obj) → st'.heap k = st.heap k) ∧
      ((∀ u v w, op.unit u v = .ok w → w = u) → ∀ k, (st'.heap k).unit = (st.heap k).unit) := by
  induction l generalizing st with
  | nil => exact ⟨st, rfl, rfl, rfl, fun _ _ => rfl, fun _ _ => rfl⟩
  | cons x l ih =>
    obtain ⟨u, hu⟩ := hp x (by simp)
    have h1 := transform_ok hu (hs x (by simp))
    have hpres : (∀ u v w, op.unit u v = .ok w → w = u) →
        ∀ k, ((after op (ta x) (tb x) u st).heap k).unit = (st.heap k).unit := by
      intro hop k
      by_cases hk : k = (ta x).obj
      · subst hk
        rw [after_heap_self]
        exact hop _ _ _ (checks_unit hu).2.2
      · rw [after_heap_ne _ _ _ _ _ hk]
    obtain ⟨st', h2, ha, hn, hh, hun⟩ := ih (after op (ta x) (tb x) u st)
      (fun y hy => by
        refine (hp y (by simp [hy])).congr ?_ ?_
        · rcases hd with hd | hd
          · exact hpres hd _
          · rw [after_heap_ne]; exact ((List.pairwise_cons.1 hd).1 y hy).1.symm
        · rcases hd with hd | hd
          · exact hpres hd _
          · rw [after_heap_ne]; exact ((List.pairwise_cons.1 hd).1 y hy).2.symm)
      (fun y hy => hs y (by simp [hy]))
      (hd.imp id fun hd => (List.pairwise_cons.1 hd).2)
    refine ⟨st', ?_, by rw [ha, after_arrays], by rw [hn, after_next], ?_, ?_⟩
    · simp only [forAll, h1, andThen]; exact h2
    · intro k hk
      rw [hh k (fun y hy => hk y (by simp [hy])), after_heap_ne _ _ _ _ _ (hk x (by simp))]
    · intro hop k
      rw [hun hop, hpres hop]

/-- The operation `|=` of masks: units stay, `bool` is supported. -/
structure MaskOps.Std (mo : MaskOps U D) : Prop where
  unit : mo.or_.unit mo.none_ mo.none_ = .ok mo.none_
  types : mo.or_.types mo.boolType mo.boolType = true
  early : ∀ a b, mo.or_.early a b = none
  late : ∀ a b, mo.or_.late a b = none

/-- A mask of the right-hand side can be combined with the mask of the same name on the
left, if there is one: that one is writable, both are dimensionless `bool` masks, and the dimensions
of the former are contained in those of the latter. -/
def MaskFits (mo : MaskOps U D) (st : State U D) (i : Nat) (m : Nat × Ref) : Prop :=
  m.2.obj < st.next ∧ ∀ cur, find (st.masks i) m.1 = some cur →
    cur.obj < st.next ∧ cur.readonly = false ∧ cur.dtype = mo.boolType ∧ m.2.dtype = mo.boolType ∧
    (st.heap cur.obj).unit = mo.none_ ∧ (st.heap m.2.obj).unit = mo.none_ ∧ m.2.hasVar = false ∧
    Sizes.includes cur.dims m.2.dims = true

omit [DecidableEq U] in
theorem find_map_masks (l : List (Nat × DA)) (i : Nat) (ms : List (Nat × Ref)) (j : Nat) :
    find (l.map (fun p => if p.1 = i then (p.1, { p.2 with masks := ms }) else p)) j =
      (find l j).map (fun a => if j = i then { a with masks := ms } else a) := by
  induction l with
  | nil => rfl
  | cons p l ih =>
    obtain ⟨k, a⟩ := p
    unfold find at ih ⊢
    rw [List.map_cons]
    by_cases hk : k = i
    · subst hk
      by_cases hj : k = j
      · subst hj; simp
      · simp [List.find?_cons, hj]; simpa using ih
    · by_cases hj : k = j
      · subst hj; simp [hk]
      · simp [List.find?_cons, hk, hj]; simpa using ih

omit [DecidableEq U] in
theorem masks_setMasks_self (st : State U D) (i : Nat) (ms : List (Nat × Ref)) {a : DA}
    (h : find st.arrays i = some a) : (st.setMasks i ms).masks i = ms := by
  simp [State.masks, State.setMasks, find_map_masks, h]

omit [DecidableEq U] in
theorem masks_setMasks_ne (st : State U D) (i : Nat) (ms : List (Nat × Ref)) {j : Nat} (h : j ≠ i) :
    (st.setMasks i ms).masks j = st.masks j := by
  simp [State.masks, State.setMasks, find_map_masks, h]

omit [DecidableEq U] in
theorem find_append {α : Type} (l : List (Nat × α)) (k : Nat) (x : α) {j : Nat} (h : j ≠ k) :
    find (l ++ [(k, x)]) j = find l j := by
  unfold find
  rw [List.find?_append]
  have : ¬ k = j := fun e => h e.symm
  simp [this]

/-- What is unaffected when masks of array `i` are updated: units of existing objects, everything but
the masks of array `i`. -/
structure Keeps (i : Nat) (st st' : State U D) : Prop where
  next : st.next ≤ st'.next
  unit : ∀ k < st.next, (st'.heap k).unit = (st.heap k).unit
  masks : ∀ j ≠ i, st'.masks j = st.masks j
  data : ∀ j, (find st'.arrays j).map (fun a => (a.data, a.coords, a.masksReadonly)) =
    (find st.arrays j).map (fun a => (a.data, a.coords, a.masksReadonly))

omit [DecidableEq U] in
theorem Keeps.refl (i : Nat) (st : State U D) : Keeps i st st := ⟨Nat.le_refl _, fun _ _ => rfl, fun _ _ => rfl, fun _ => rfl⟩

omit [DecidableEq U] in
theorem Keeps.trans {i : Nat} {s t u : State U D} (h : Keeps i s t) (g : Keeps i t u) : Keeps i s u :=
  ⟨Nat.le_trans h.next g.next, fun k hk => (g.unit k (Nat.lt_of_lt_of_le hk h.next)).trans (h.unit k hk),
    fun j hj => (g.masks j hj).trans (h.masks j hj), fun j => (g.data j).trans (h.data j)⟩

theorem checks_mask {mo : MaskOps U D} (hmo : mo.Std) {cur m : Ref} (hr : cur.readonly = false)
    (hd : cur.dtype = mo.boolType) (hd' : m.dtype = mo.boolType) (hv : m.hasVar = false)
    (hi : Sizes.includes cur.dims m.dims = true) :
    checks mo.or_ cur m mo.none_ mo.none_ = .ok mo.none_ := by
  unfold checks
  rw [hi, hmo.early, hmo.unit, hd, hd', hmo.types, hr, hv]
  simp [hmo.late]

theorem unionOrApply_ok {mo : MaskOps U D} (hmo : mo.Std) (i : Nat) (m : Nat × Ref) (st : State U D)
    (hi : (find st.arrays i).isSome) (h : MaskFits mo st i m) :
    ∃ st', unionOrApply mo i m st = .ok st' ∧ Keeps i st st' ∧
      ∀ k, k ≠ m.1 → find (st'.masks i) k = find (st.masks i) k := by
  obtain ⟨hm, h⟩ := h
  obtain ⟨a, ha⟩ := Option.isSome_iff_exists.1 hi
  cases hf : find (st.masks i) m.1 with
  | none =>
    refine ⟨_, by unfold unionOrApply; rw [hf], ⟨by simp [State.setMasks], ?_, ?_, ?_⟩, ?_⟩
    · intro k hk
      simp only [State.setMasks]
      rw [Function.update_of_ne (Nat.ne_of_lt hk)]
    · intro j hj
      rw [masks_setMasks_ne _ _ _ hj]; rfl
    · intro j
      simp only [State.setMasks, find_map_masks, Option.map_map]
      congr 1
      funext x
      by_cases hj : j = i <;> simp [hj]
    · intro k hk
      rw [masks_setMasks_self _ i _ (a := a) (by exact ha), find_append _ _ _ hk]
  | some cur =>
    obtain ⟨hc, hr, hd, hd', hu, hu', hv, hi'⟩ := h cur hf
    have hch := checks_mask hmo hr hd hd' hv hi'
    have h1 : transformInPlace false mo.or_ cur m.2 st = .ok (after mo.or_ cur m.2 mo.none_ st) :=
      transform_ok_of (by rw [hu, hu']; exact hch) (by simp [hu])
    refine ⟨after mo.or_ cur m.2 mo.none_ st, ?_, ⟨Nat.le_refl _, ?_, fun _ _ => rfl, fun _ => rfl⟩, fun _ _ => rfl⟩
    · unfold unionOrApply; rw [hf]; simp [hr, h1]
    · intro k _
      by_cases hk : k = cur.obj
      · subst hk; rw [after_heap_self, hu]
      · rw [after_heap_ne _ _ _ _ _ hk]

omit [DecidableEq U] in
theorem Keeps.isSome {i j : Nat} {st st' : State U D} (h : Keeps i st st') (hs : (find st.arrays j).isSome) :
    (find st'.arrays j).isSome := by
  have := congrArg Option.isSome (h.data j)
  simpa [hs] using this

omit [DecidableEq U] in
theorem MaskFits.mono {mo : MaskOps U D} {st st' : State U D} {i : Nat} {m : Nat × Ref} (h : MaskFits mo st i m)
    (hn : st.next ≤ st'.next) (hu : (st'.heap m.2.obj).unit = (st.heap m.2.obj).unit)
    (hu' : ∀ cur, find (st.masks i) m.1 = some cur → (st'.heap cur.obj).unit = (st.heap cur.obj).unit)
    (hf : find (st'.masks i) m.1 = find (st.masks i) m.1) : MaskFits mo st' i m := by
  refine ⟨Nat.lt_of_lt_of_le h.1 hn, ?_⟩
  intro cur hc
  rw [hf] at hc
  obtain ⟨h1, h2, h3, h4, h5, h6, h7, h8⟩ := h.2 cur hc
  exact ⟨Nat.lt_of_lt_of_le h1 hn, h2, h3, h4, by rw [hu' cur hc, h5], by rw [hu, h6], h7, h8⟩

theorem forAll_unionOrApply_ok {mo : MaskOps U D} (hmo : mo.Std) (i : Nat) (ms : List (Nat × Ref)) (st : State U D)
    (hi : (find st.arrays i).isSome) (hn : (ms.map Prod.fst).Nodup) (h : ∀ m ∈ ms, MaskFits mo st i m) :
    ∃ st', forAll (unionOrApply mo i) ms st = .ok st' ∧ Keeps i st st' := by
  induction ms generalizing st with
  | nil => exact ⟨st, rfl, Keeps.refl _ _⟩
  | cons m ms ih =>
    obtain ⟨s1, h1, hk, hf⟩ := unionOrApply_ok hmo i m st hi (h m (by simp))
    rw [List.map_cons, List.nodup_cons] at hn
    obtain ⟨s2, h2, hk2⟩ := ih s1 (hk.isSome hi) hn.2 (fun y hy => by
      have hy' := h y (by simp [hy])
      refine hy'.mono hk.next (hk.unit _ hy'.1) (fun cur hc => hk.unit _ (hy'.2 cur hc).1) (hf _ ?_)
      intro e
      exact hn.1 (e ▸ List.mem_map_of_mem hy))
    exact ⟨s2, by simp only [forAll, h1, andThen]; exact h2, hk.trans hk2⟩

theorem unionOrCheck_error {mo : MaskOps U D} {i : Nat} {ro : Bool} {m : Nat × Ref} {st st' : State U D} {e : Err}
    (h : unionOrCheck mo i ro m st = .error (e, st')) : st' = st := by
  unfold unionOrCheck at h
  split at h
  · exact check_error h
  · rcases andThen_error h with h | ⟨y, hy, h1⟩
    · exact check_error h
    · obtain ⟨-, rfl⟩ := check_ok hy
      rcases andThen_error h1 with h1 | ⟨z, hz, h2⟩
      · exact check_error h1
      · obtain ⟨-, rfl⟩ := check_ok hz
        exact check_error h2

theorem unionOrCheck_state {mo : MaskOps U D} {i : Nat} {ro : Bool} {m : Nat × Ref} {st st' : State U D}
    (h : unionOrCheck mo i ro m st = .ok st') : st' = st := by
  unfold unionOrCheck at h
  split at h
  · exact (check_ok h).2
  · obtain ⟨y, hy, h1⟩ := andThen_ok h
    obtain ⟨-, rfl⟩ := check_ok hy
    obtain ⟨z, hz, h2⟩ := andThen_ok h1
    obtain ⟨-, rfl⟩ := check_ok hz
    exact (check_ok h2).2

theorem unionOrCheck_ok {mo : MaskOps U D} {i : Nat} {m : Nat × Ref} {st : State U D}
    (h : MaskFits mo st i m) : unionOrCheck mo i false m st = .ok st := by
  unfold unionOrCheck
  cases hf : find (st.masks i) m.1 with
  | none => rfl
  | some cur =>
    obtain ⟨h1, h2, h3, h4, h5, h6, h7, h8⟩ := h.2 cur hf
    simp [h2, h3, h4, h5, h6, andThen]

omit [DecidableEq U] in
theorem forAll_ok_of {α : Type} {f : α → State U D → Res U D} {st : State U D} (l : List α)
    (h : ∀ x ∈ l, f x st = .ok st) : forAll f l st = .ok st := by
  induction l with
  | nil => rfl
  | cons x l ih =>
    simp only [forAll, h x (by simp), andThen]
    exact ih fun y hy => h y (by simp [hy])

/-- Everything needed for `array i op= b` to succeed. -/
structure ArrayFits (mo : MaskOps U D) (op : Op U D) (st : State U D) (i : Nat) (a b : DA) : Prop where
  isArray : find st.arrays i = some a
  writable : a.masksReadonly = false
  coords : coordsSuperset a.coords b.coords = true
  data : Passes op a.data b.data st
  complete : a.data.bufSlice = true → a.data.slice_ = true
  objs : a.data.obj < st.next ∧ b.data.obj < st.next
  names : (b.masks.map Prod.fst).Nodup
  masks : ∀ m ∈ b.masks, MaskFits mo st i m

/-- What is unaffected by an operation on array `i` with data `t`. -/
structure KeepsData (op : Op U D) (i : Nat) (t : Nat) (st st' : State U D) : Prop where
  next : st.next ≤ st'.next
  unit : ∀ k < st.next, k ≠ t → (st'.heap k).unit = (st.heap k).unit
  unit' : (∀ u v w, op.unit u v = .ok w → w = u) → ∀ k < st.next, (st'.heap k).unit = (st.heap k).unit
  masks : ∀ j ≠ i, st'.masks j = st.masks j
  data : ∀ j, (find st'.arrays j).map (fun a => (a.data, a.coords, a.masksReadonly)) =
    (find st.arrays j).map (fun a => (a.data, a.coords, a.masksReadonly))

theorem arrayOp_ok {mo : MaskOps U D} (hmo : mo.Std) {op : Op U D} {st : State U D} {i : Nat} {a b : DA}
    (h : ArrayFits mo op st i a b) :
    ∃ st', arrayOp mo op i b st = .ok st' ∧ KeepsData op i a.data.obj st st' := by
  obtain ⟨s1, h1, hk⟩ := forAll_unionOrApply_ok hmo i b.masks st (by simp [h.isArray]) h.names h.masks
  have hp : Passes op a.data b.data s1 := h.data.congr (hk.unit _ h.objs.1) (hk.unit _ h.objs.2)
  obtain ⟨u, hu⟩ := hp
  have h2 := transform_ok hu h.complete
  have h0 : forAll (unionOrCheck mo i false) b.masks st = .ok st :=
    forAll_ok_of _ fun m hm => unionOrCheck_ok (h.masks m hm)
  refine ⟨after op a.data b.data u s1, ?_, ⟨hk.next, ?_, ?_, hk.masks, hk.data⟩⟩
  · unfold arrayOp
    rw [h.isArray]
    simp only [h.coords, check_true, andThen, unionOrInPlace, h.writable, h0, h1, h2]
  · intro k hk' hne
    rw [after_heap_ne _ _ _ _ _ hne, hk.unit k hk']
  · intro hop k hk'
    by_cases e : k = a.data.obj
    · subst e
      rw [after_heap_self, ← hk.unit _ hk']
      exact hop _ _ _ (checks_unit hu).2.2
    · rw [after_heap_ne _ _ _ _ _ e, hk.unit k hk']

/-- Objects involved in an operation on array `i`. -/
def objsOf (st : State U D) (i : Nat) (a b : DA) : List Nat :=
  a.data.obj :: b.data.obj :: (b.masks.map (fun m => m.2.obj) ++ (st.masks i).map (fun m => m.2.obj))

omit [DecidableEq U] in
theorem find_mem {α : Type} {l : List (Nat × α)} {k : Nat} {x : α} (h : find l k = some x) : (k, x) ∈ l := by
  unfold find at h
  rw [Option.map_eq_some_iff] at h
  obtain ⟨p, hp, rfl⟩ := h
  have h1 := List.mem_of_find?_eq_some hp
  have h2 := List.find?_some hp
  simp at h2
  subst h2
  exact h1

theorem ArrayFits.mono {mo : MaskOps U D} {op : Op U D} {st st' : State U D} {i j t : Nat} {a b : DA}
    (h : ArrayFits mo op st j a b) (hk : KeepsData op i t st st') (hij : j ≠ i)
    (hd : (∀ u v w, op.unit u v = .ok w → w = u) ∨ t ∉ objsOf st j a b) :
    ∃ a', ArrayFits mo op st' j a' b ∧ a'.data = a.data ∧ a'.masks = a.masks := by
  have hu : ∀ k < st.next, k ∈ objsOf st j a b → (st'.heap k).unit = (st.heap k).unit := by
    intro k hk1 hk2
    rcases hd with hd | hd
    · exact hk.unit' hd k hk1
    · exact hk.unit k hk1 (fun e => hd (e ▸ hk2))
  have hfa := hk.data j
  rw [h.isArray] at hfa
  simp only [Option.map_some] at hfa
  rw [Option.map_eq_some_iff] at hfa
  obtain ⟨a', ha', e⟩ := hfa
  simp only [Prod.mk.injEq] at e
  obtain ⟨e1, e2, e3⟩ := e
  have hms : a'.masks = a.masks := by
    have := hk.masks j hij
    simpa [State.masks, ha', h.isArray] using this
  refine ⟨a', ⟨ha', e3 ▸ h.writable, e2 ▸ h.coords, ?_, e1 ▸ h.complete, ?_, h.names, ?_⟩, e1, hms⟩
  · rw [e1]
    exact h.data.congr (hu _ h.objs.1 (by simp [objsOf])) (hu _ h.objs.2 (by simp [objsOf]))
  · rw [e1]
    exact ⟨Nat.lt_of_lt_of_le h.objs.1 hk.next, Nat.lt_of_lt_of_le h.objs.2 hk.next⟩
  · intro m hm
    have hm' := h.masks m hm
    refine hm'.mono hk.next (hu _ hm'.1 ?_) (fun cur hc => hu _ (hm'.2 cur hc).1 ?_) (by rw [hk.masks j hij])
    · simp only [objsOf, List.mem_cons, List.mem_append, List.mem_map]
      exact .inr (.inr (.inl ⟨m, hm, rfl⟩))
    · simp only [objsOf, List.mem_cons, List.mem_append, List.mem_map]
      exact .inr (.inr (.inr ⟨_, find_mem hc, rfl⟩))

/-- The second loop of `Dataset op= Dataset` cannot fail. -/
theorem forAll_arrayOp_ok {mo : MaskOps U D} (hmo : mo.Std) {op : Op U D} (l : List (Nat × DA)) (st : State U D)
    (hn : (l.map Prod.fst).Nodup) (h : ∀ p ∈ l, ∃ a, ArrayFits mo op st p.1 a p.2)
    (hd : (∀ u v w, op.unit u v = .ok w → w = u) ∨
      l.Pairwise (fun p q => ∀ a b, find st.arrays p.1 = some a → find st.arrays q.1 = some b →
        a.data.obj ∉ objsOf st q.1 b q.2)) :
    ∃ st', forAll (fun p => arrayOp mo op p.1 p.2) l st = .ok st' := by
  induction l generalizing st with
  | nil => exact ⟨st, rfl⟩
  | cons p l ih =>
    obtain ⟨a, ha⟩ := h p (by simp)
    obtain ⟨s1, h1, hk⟩ := arrayOp_ok hmo ha
    rw [List.map_cons, List.nodup_cons] at hn
    have hne : ∀ q ∈ l, q.1 ≠ p.1 := fun q hq e => hn.1 (e ▸ List.mem_map_of_mem hq)
    have hstep : ∀ q ∈ l, ∃ b b', find st.arrays q.1 = some b ∧ ArrayFits mo op s1 q.1 b' q.2 ∧
        b'.data = b.data ∧ b'.masks = b.masks := by
      intro q hq
      obtain ⟨b, hb⟩ := h q (by simp [hq])
      obtain ⟨b', hb', e1, e2⟩ := hb.mono hk (hne q hq)
        (hd.imp id fun hd => by
          have := (List.pairwise_cons.1 hd).1 q hq
          exact this a b ha.isArray hb.isArray)
      exact ⟨b, b', hb.isArray, hb', e1, e2⟩
    obtain ⟨s2, h2⟩ := ih s1 hn.2 (fun q hq => by
      obtain ⟨b, b', -, hb', -, -⟩ := hstep q hq
      exact ⟨b', hb'⟩) (hd.imp id fun hd => by
      refine List.Pairwise.imp_of_mem (R := fun p q => ∀ a b, find st.arrays p.1 = some a → find st.arrays q.1 = some b →
        a.data.obj ∉ objsOf st q.1 b q.2) ?_ (List.pairwise_cons.1 hd).2
      intro x y hx hy hxy a' b' ha' hb'
      obtain ⟨xa, xa', fx, gx, ex, -⟩ := hstep x hx
      obtain ⟨ya, ya', fy, gy, ey, ey'⟩ := hstep y hy
      have e1 : xa' = a' := by have := gx.isArray; rw [ha'] at this; simpa using this.symm
      have e2 : ya' = b' := by have := gy.isArray; rw [hb'] at this; simpa using this.symm
      subst e1 e2
      have := hxy xa ya fx fy
      have hm := hk.masks y.1 (hne y hy)
      simpa [objsOf, ex, ey, hm] using this)
    exact ⟨s2, by simp only [forAll, h1, andThen]; exact h2⟩

end Scipp.InPlace
