import Verif.Lemmas.InPlace
import Mathlib.Data.List.Pairwise
/-!
C34: an in-place operation that throws leaves its operands unchanged.
C56: an in-place operation of a dataset with a variable applies to every item exactly once.

`Res` carries the state at the time of the exception, so "unchanged" is `st' = st`: all units and
data of all objects, and all dictionaries of masks.
-/
namespace Scipp.Props
open Scipp InPlace

variable {U D : Type} [DecidableEq U]

/-- The condition under which the early check of `expect_can_set_elem_unit` is the same as the check of
the final `setUnit`: always true for dense data, true for binned data if the buffer is not a partial
view. -/
def CheckedUnit (a : Ref) : Prop := a.bufSlice = true → a.slice_ = true

/-- C34 for variables: if `a op= b` throws, nothing was modified. Although the unit is set after the
data was written, that cannot fail. -/
theorem C34_variable_partial {op : Op U D} {a b : Ref} {st st' : State U D} {e : Err}
    (ha : CheckedUnit a) (h : transformInPlace false op a b st = .error (e, st')) : st' = st :=
  (transform_error ha h).1

/-- C34 for variables: the dry run throws if and only if the operation throws. -/
theorem C34_dry_run_is_faithful {op : Op U D} {a b : Ref} {st : State U D} (ha : CheckedUnit a) (e : Err) :
    (∃ st', transformInPlace true op a b st = .error (e, st')) ↔
      ∃ st', transformInPlace false op a b st = .error (e, st') := by
  constructor
  · rintro ⟨st', h⟩
    refine ⟨st, ?_⟩
    have := (transform_error ha h).2
    unfold transformInPlace; rw [this]
  · rintro ⟨st', h⟩
    refine ⟨st, ?_⟩
    have := (transform_error ha h).2
    unfold transformInPlace; rw [this]

/-- C34 for `DataArray op= Variable`. -/
theorem C34_data_array_variable_partial {op : Op U D} {a : DA} {b : Ref} {st st' : State U D} {e : Err}
    (ha : CheckedUnit a.data) (h : arrayOpVar op a b st = .error (e, st')) : st' = st :=
  (transform_error ha h).1

theorem validateSlice_error {a b : Ref} {p : Slice} {st st' : State U D} {e : Err}
    (h : validateSlice a p b st = .error (e, st')) : st' = st := by
  unfold validateSlice at h
  split at h
  · simp only [Except.error.injEq, Prod.mk.injEq] at h; exact h.2.symm
  · rcases andThen_error h with h | ⟨y, hy, h1⟩
    · exact check_error h
    · obtain ⟨-, rfl⟩ := check_ok hy
      rcases andThen_error h1 with h1 | ⟨z, hz, h2⟩
      · exact check_error h1
      · obtain ⟨-, rfl⟩ := check_ok hz
        exact check_error h2

/-- What `Variable::validateSlice` ensures. -/
def SliceValid (a : Ref) (p : Slice) (b : Ref) (st : State U D) : Prop :=
  Sizes.validSlice a.dims p = .ok () ∧ a.hasVar = b.hasVar ∧ (st.heap a.obj).unit = (st.heap b.obj).unit ∧
    a.dtype = b.dtype

theorem validateSlice_ok {a b : Ref} {p : Slice} {st st' : State U D}
    (h : validateSlice a p b st = .ok st') : st' = st ∧ SliceValid a p b st := by
  unfold validateSlice at h
  split at h
  · simp at h
  · rename_i hv
    obtain ⟨y, hy, h1⟩ := andThen_ok h
    obtain ⟨k1, rfl⟩ := check_ok hy
    obtain ⟨z, hz, h2⟩ := andThen_ok h1
    obtain ⟨k2, rfl⟩ := check_ok hz
    obtain ⟨k3, rfl⟩ := check_ok h2
    exact ⟨rfl, hv, by simpa using k1, by simpa using k2, by simpa using k3⟩

theorem validateSlice_of {a b : Ref} {p : Slice} {st : State U D} (h : SliceValid a p b st) :
    validateSlice a p b st = .ok st := by
  obtain ⟨h1, h2, h3, h4⟩ := h
  unfold validateSlice
  rw [h1]
  simp [h2, h3, h4, andThen]

/-- C34 for `Variable::setSlice`. -/
theorem C34_set_slice_variable {copy : Ref → Ref → (Nat → InPlace.Obj U D) → D} {a b : Ref} {p : Slice}
    {st st' : State U D} {e : Err} (h : setSliceVar copy a p b st = .error (e, st')) : st' = st := by
  rcases andThen_error h with h | ⟨y, hy, h1⟩
  · exact validateSlice_error h
  · obtain ⟨rfl, -⟩ := validateSlice_ok hy
    cases hs : a.slice p with
    | error e' => rw [hs] at h1; simp only [Except.error.injEq, Prod.mk.injEq] at h1; exact h1.2.symm
    | ok s =>
      rw [hs] at h1
      refine (transform_error ?_ h1).1
      unfold Ref.slice at hs
      split at hs
      · simp at hs
      · split at hs
        · simp at hs
        · simp only [Except.ok.injEq] at hs
          subst hs
          exact fun _ => rfl

theorem forAll_first_error {α : Type} {f : α → State U D → Res U D} {st : State U D}
    (he : ∀ x s e s', f x s = .error (e, s') → s' = s) (ho : ∀ x s s', f x s = .ok s' → s' = s)
    (l : List α) (h : ∃ x ∈ l, ∀ s', f x st ≠ .ok s') : ∃ e, forAll f l st = .error (e, st) := by
  induction l with
  | nil => simp at h
  | cons x l ih =>
    simp only [forAll]
    cases hx : f x st with
    | error p =>
      obtain ⟨e, s'⟩ := p
      rw [he _ _ _ _ hx]
      exact ⟨e, rfl⟩
    | ok s' =>
      have hs := ho _ _ _ hx
      subst hs
      obtain ⟨y, hy, h⟩ := h
      rcases List.mem_cons.1 hy with rfl | hy
      · exact absurd hx (h _)
      · exact ih ⟨y, hy, h⟩

/-- C34 for the masks of a data array (`union_or_in_place`): nothing is modified if some mask is not acceptable, i.e., if it would be
new in a read-only dict, would change a read-only mask, or if the masks with its name are not both `bool` without unit. -/
theorem C34_masks_checked {mo : MaskOps U D} {i : Nat} {ro : Bool} {masks : List (Nat × Ref)} {st : State U D} {m : Nat × Ref}
    (hm : m ∈ masks)
    (h : (find (st.masks i) m.1 = none ∧ ro = true) ∨ ∃ cur, find (st.masks i) m.1 = some cur ∧
      ((cur.readonly = true ∧ mo.differs cur m.2 st.heap = true) ∨ m.2.dtype ≠ mo.boolType ∨ cur.dtype ≠ mo.boolType ∨
        (st.heap m.2.obj).unit ≠ mo.none_ ∨ (st.heap cur.obj).unit ≠ mo.none_)) :
    ∃ e, unionOrInPlace mo i ro masks st = .error (e, st) := by
  obtain ⟨e, he⟩ := forAll_first_error (f := unionOrCheck mo i ro) (st := st) (fun _ _ _ _ h => unionOrCheck_error h)
    (fun _ _ _ h => unionOrCheck_state h) masks ⟨m, hm, fun s' hs => by
      unfold unionOrCheck at hs
      rcases h with ⟨h1, h2⟩ | ⟨cur, h1, h2⟩
      · rw [h1, h2] at hs
        cases hs
      · rw [h1] at hs
        obtain ⟨y, hy, h3⟩ := andThen_ok hs
        obtain ⟨c1, rfl⟩ := check_ok hy
        obtain ⟨z, hz, h4⟩ := andThen_ok h3
        obtain ⟨c2, rfl⟩ := check_ok hz
        obtain ⟨c3, rfl⟩ := check_ok h4
        simp only [Bool.and_eq_true, beq_iff_eq, decide_eq_true_eq] at c2 c3
        rcases h2 with ⟨h5, h6⟩ | h5 | h5 | h5 | h5
        · rw [h5, h6] at c1
          cases c1
        · exact h5 c2.1
        · exact h5 c2.2
        · exact h5 c3.1
        · exact h5 c3.2⟩
  refine ⟨e, ?_⟩
  unfold unionOrInPlace
  rw [he]
  rfl

/-- C34 for `DataArray op= DataArray`, when the masks of the right-hand side fit and the data operation on
its own is possible, or when the right-hand side has no masks. Without such conditions it does
not hold, see `C34_wrong_for_data_array`. -/
theorem C34_data_array_partial {mo : MaskOps U D} {op : Op U D} {i : Nat} {a b : DA} {st st' : State U D} {e : Err}
    (hmo : mo.Std) (hi : find st.arrays i = some a) (ha : CheckedUnit a.data)
    (hb : b.masks = [] ∨
      a.masksReadonly = false ∧ (a.data.obj < st.next ∧ b.data.obj < st.next) ∧ (b.masks.map Prod.fst).Nodup ∧
      (∀ m ∈ b.masks, MaskFits mo st i m) ∧ ∃ s, transformInPlace true op a.data b.data st = .ok s)
    (h : arrayOp mo op i b st = .error (e, st')) : st' = st := by
  have h' := h
  unfold arrayOp at h
  rw [hi] at h
  rcases andThen_error h with h | ⟨y, hy, h1⟩
  · exact check_error h
  · obtain ⟨hc, rfl⟩ := check_ok hy
    rcases hb with hb | ⟨hr, ho, hn, hm, s, hs⟩
    · rw [hb] at h1
      simp only [unionOrInPlace, forAll, andThen] at h1
      exact (transform_error ha h1).1
    · obtain ⟨s2, h2, -⟩ := arrayOp_ok hmo (a := a) ⟨hi, hr, hc, (dry_ok hs).2, ha, ho, hn, hm⟩
      rw [h2] at h'; simp at h'

/-- C34 for `Dataset op= Dataset`: the dry run of all items and the data operations are enough if masks fit,
and if either the operation keeps the unit (`+=`, `-=`), or no modified item is an operand or
target of the operation on a later item. -/
theorem C34_dataset_partial {mo : MaskOps U D} {op : Op U D} {b : List (Nat × DA)} {st st' : State U D} {e : Err}
    (hmo : mo.Std) (hnames : (b.map Prod.fst).Nodup)
    (hobj : ∀ p ∈ b, p.2.data.obj < st.next ∧ ∀ a, find st.arrays p.1 = some a →
      a.data.obj < st.next ∧ CheckedUnit a.data ∧ a.masksReadonly = false)
    (hmask : ∀ p ∈ b, (p.2.masks.map Prod.fst).Nodup ∧ ∀ m ∈ p.2.masks, MaskFits mo st p.1 m)
    (halias : (∀ u v w, op.unit u v = .ok w → w = u) ∨
      b.Pairwise (fun p q => ∀ x y, find st.arrays p.1 = some x → find st.arrays q.1 = some y →
        x.data.obj ∉ objsOf st q.1 y q.2))
    (h : datasetOp mo op b st = .error (e, st')) : st' = st := by
  have hdry := forAll_checks (f := fun p : Nat × DA => dryRun op p.1 p.2)
    (Q := fun p st => ∃ a, find st.arrays p.1 = some a ∧ coordsSuperset a.coords p.2.coords = true ∧
      Passes op a.data p.2.data st) (by
      intro p s e s' h
      unfold dryRun at h
      split at h
      · simp only [Except.error.injEq, Prod.mk.injEq] at h; exact h.2.symm
      · rcases andThen_error h with h | ⟨y, hy, h1⟩
        · exact check_error h
        · obtain ⟨-, rfl⟩ := check_ok hy
          exact dry_error h1) (by
      intro p s s' h
      unfold dryRun at h
      split at h
      · simp at h
      · rename_i a ha
        obtain ⟨y, hy, h1⟩ := andThen_ok h
        obtain ⟨hc, rfl⟩ := check_ok hy
        obtain ⟨rfl, hp⟩ := dry_ok h1
        exact ⟨rfl, a, ha, hc, hp⟩) b st
  rcases andThen_error h with h | ⟨y, hy, h1⟩
  · exact hdry.1 _ _ h
  · obtain ⟨rfl, hq⟩ := hdry.2 _ hy
    obtain ⟨s, hs⟩ := forAll_arrayOp_ok hmo (op := op) b y hnames (fun p hp => by
      obtain ⟨a, ha, hc, hpa⟩ := hq p hp
      obtain ⟨o1, o2⟩ := hobj p hp
      obtain ⟨o3, o4, o5⟩ := o2 a ha
      exact ⟨a, ha, o5, hc, hpa, o4, ⟨o3, o1⟩, (hmask p hp).1, (hmask p hp).2⟩) halias
    rw [hs] at h1; simp at h1

/-- The items of a dataset that do not refer to the object of `b`, and the others. -/
theorem datasetOpVar_cases {op : Op U D} {b : Ref} {st st' : State U D} {r : Res U D}
    (hd : (∀ u v w, op.unit u v = .ok w → w = u) ∨
      st.arrays.Pairwise (fun p q => p.2.data.obj ≠ q.2.data.obj))
    (ha : ∀ p ∈ st.arrays, CheckedUnit p.2.data)
    (hp : ∀ p ∈ st.arrays, Passes op p.2.data b st) (hr : datasetOpVar op b st = r) :
    ∃ s, r = .ok s := by
  subst hr
  have h0 : forAll (fun p : Nat × DA => transformInPlace true op p.2.data b) st.arrays st = .ok st :=
    forAll_ok_of _ fun p hp' => by
      obtain ⟨u, hu⟩ := hp p hp'
      simp [transformInPlace, hu]
  have hmem : ∀ p ∈ st.arrays.filter (fun p => p.2.data.obj != b.obj), p ∈ st.arrays ∧ p.2.data.obj ≠ b.obj := by
    intro p hp; simpa using hp
  obtain ⟨s, hs, harr, -, hkeep, hunit⟩ := forAll_transform_ok (op := op) (fun p : Nat × DA => p.2.data) (fun _ => b)
    (st.arrays.filter (fun p => p.2.data.obj != b.obj)) st (fun p hq => hp p (hmem p hq).1)
    (fun p hq => ha p (hmem p hq).1) (hd.imp id fun hd => by
      refine List.Pairwise.imp_of_mem (R := fun p q => p.2.data.obj ≠ q.2.data.obj) ?_ (hd.sublist List.filter_sublist)
      intro x y hx hy hxy
      exact ⟨hxy, (hmem x hx).2⟩)
  have hs' : forAll (fun p : Nat × DA => arrayOpVar op p.2 b) (st.arrays.filter (fun p => p.2.data.obj != b.obj)) st =
    .ok s := hs
  unfold datasetOpVar
  rw [h0]
  simp only [andThen, hs', harr]
  cases hl : (st.arrays.filter (fun p => p.2.data.obj == b.obj)).getLast? with
  | none => exact ⟨s, rfl⟩
  | some p =>
    have hm := List.mem_of_getLast? hl
    have hm' : p ∈ st.arrays ∧ p.2.data.obj = b.obj := by simpa using hm
    have hb : (s.heap b.obj).unit = (st.heap b.obj).unit := by
      rw [hkeep b.obj (fun x hx => (hmem x hx).2.symm)]
    obtain ⟨u, hu⟩ := (hp p hm'.1).congr (st' := s) (by rw [hm'.2]; exact hb) hb
    exact ⟨_, transform_ok hu (ha p hm'.1)⟩

/-- C34 for `Dataset op= Variable`: if the operation keeps the unit, or the items refer to
different objects, nothing is modified if it throws. -/
theorem C34_dataset_variable_partial {op : Op U D} {b : Ref} {st st' : State U D} {e : Err}
    (hd : (∀ u v w, op.unit u v = .ok w → w = u) ∨
      st.arrays.Pairwise (fun p q => p.2.data.obj ≠ q.2.data.obj))
    (ha : ∀ p ∈ st.arrays, CheckedUnit p.2.data)
    (h : datasetOpVar op b st = .error (e, st')) : st' = st := by
  have hdry := forAll_checks (f := fun p : Nat × DA => transformInPlace true op p.2.data b)
    (Q := fun p st => Passes op p.2.data b st) (fun _ _ _ _ h => dry_error h) (fun _ _ _ h => dry_ok h)
    st.arrays st
  have h' := h
  rcases andThen_error h with h | ⟨y, hy, h1⟩
  · exact hdry.1 _ _ h
  · obtain ⟨rfl, hq⟩ := hdry.2 _ hy
    obtain ⟨s, hs⟩ := datasetOpVar_cases (st' := y) hd ha hq h'
    simp at hs

theorem forAll_transform_values {op : Op U D} (b : Ref)
    (hloc : ∀ a (g h : Nat → InPlace.Obj U D), g a.obj = h a.obj → g b.obj = h b.obj → op.data a b g = op.data a b h)
    (l : List (Nat × DA)) (st st' : State U D) (hb : ∀ x ∈ l, x.2.data.obj ≠ b.obj)
    (hs : ∀ x ∈ l, CheckedUnit x.2.data)
    (hd : l.Pairwise (fun p q => p.2.data.obj ≠ q.2.data.obj))
    (h : forAll (fun x : Nat × DA => transformInPlace false op x.2.data b) l st = .ok st') :
    (∀ k, (∀ x ∈ l, k ≠ x.2.data.obj) → st'.heap k = st.heap k) ∧ st'.arrays = st.arrays ∧
    ∀ x ∈ l, ∃ u, op.unit (st.heap x.2.data.obj).unit (st.heap b.obj).unit = .ok u ∧
      st'.heap x.2.data.obj = ⟨u, op.data x.2.data b st.heap⟩ := by
  induction l generalizing st with
  | nil =>
    simp only [forAll, Except.ok.injEq] at h
    subst h
    exact ⟨fun _ _ => rfl, rfl, by simp⟩
  | cons x l ih =>
    obtain ⟨y, hy, h1⟩ := andThen_ok h
    dsimp only at hy
    cases hc : checks op x.2.data b (st.heap x.2.data.obj).unit (st.heap b.obj).unit with
    | error e => unfold transformInPlace at hy; rw [hc] at hy; simp at hy
    | ok u =>
      rw [transform_ok hc (hs x (by simp))] at hy
      simp only [Except.ok.injEq] at hy
      subst hy
      obtain ⟨h2, h2', h3⟩ := ih (after op x.2.data b u st) (fun z hz => hb z (by simp [hz]))
        (fun z hz => hs z (by simp [hz])) (List.pairwise_cons.1 hd).2 h1
      have hx := (List.pairwise_cons.1 hd).1
      refine ⟨?_, h2', ?_⟩
      · intro k hk
        rw [h2 k (fun z hz => hk z (by simp [hz])), after_heap_ne _ _ _ _ _ (hk x (by simp))]
      · intro z hz
        rcases List.mem_cons.1 hz with rfl | hz
        · refine ⟨u, (checks_unit hc).2.2, ?_⟩
          rw [h2 _ hx, after_heap_self]
        · obtain ⟨v, hv, h4⟩ := h3 z hz
          have e1 := after_heap_ne op x.2.data b u st (hx z hz).symm
          have e2 := after_heap_ne op x.2.data b u st (hb x (by simp)).symm
          rw [e1, e2] at hv
          refine ⟨v, hv, ?_⟩
          rw [h4, hloc _ _ _ e1 e2]

/-- C56: `Dataset op= Variable` applies the operation to every item exactly once, with the value the
operand had before, also if the operand refers to the data of an item. Requires that the items
refer to different objects, which the code does not ensure (`C56_wrong_for_shared_buffer`). `hloc` says that the
element operation depends on its operands only. -/
theorem C56_every_item_once_partial {op : Op U D} {b : Ref} {st st' : State U D}
    (hloc : ∀ a (g h : Nat → InPlace.Obj U D), g a.obj = h a.obj → g b.obj = h b.obj → op.data a b g = op.data a b h)
    (hd : st.arrays.Pairwise (fun p q => p.2.data.obj ≠ q.2.data.obj))
    (ha : ∀ p ∈ st.arrays, CheckedUnit p.2.data)
    (h : datasetOpVar op b st = .ok st') :
    (∀ p ∈ st.arrays, ∃ u, op.unit (st.heap p.2.data.obj).unit (st.heap b.obj).unit = .ok u ∧
      st'.heap p.2.data.obj = ⟨u, op.data p.2.data b st.heap⟩) ∧
    (∀ k, (∀ p ∈ st.arrays, k ≠ p.2.data.obj) → st'.heap k = st.heap k) ∧ st'.arrays = st.arrays := by
  obtain ⟨y, hy, h1⟩ := andThen_ok h
  have hdry := forAll_checks (f := fun p : Nat × DA => transformInPlace true op p.2.data b)
    (Q := fun p st => Passes op p.2.data b st) (fun _ _ _ _ h => dry_error h) (fun _ _ _ h => dry_ok h)
    st.arrays st
  obtain ⟨rfl, -⟩ := hdry.2 _ hy
  obtain ⟨s, hs, h2⟩ := andThen_ok h1
  have hmem : ∀ p ∈ y.arrays.filter (fun p => p.2.data.obj != b.obj), p ∈ y.arrays ∧ p.2.data.obj ≠ b.obj := by
    intro p hp; simpa using hp
  obtain ⟨k1, k2, k3⟩ := forAll_transform_values (op := op) b hloc _ y s (fun p hp => (hmem p hp).2)
    (fun p hp => ha p (hmem p hp).1) (hd.sublist List.filter_sublist) hs
  have hb : s.heap b.obj = y.heap b.obj := k1 _ (fun x hx => (hmem x hx).2.symm)
  rw [k2] at h2
  cases hl : (y.arrays.filter (fun p => p.2.data.obj == b.obj)).getLast? with
  | none =>
    rw [hl] at h2
    simp only [Except.ok.injEq] at h2
    subst h2
    have hnone : ∀ p ∈ y.arrays, p.2.data.obj ≠ b.obj := by
      rw [List.getLast?_eq_none_iff, List.filter_eq_nil_iff] at hl
      intro p hp; simpa using hl p hp
    exact ⟨fun p hp => k3 p (by simpa using ⟨hp, hnone p hp⟩),
      fun k hk => k1 k (fun x hx => hk x (hmem x hx).1), k2⟩
  | some q =>
    rw [hl] at h2
    have hm := List.mem_of_getLast? hl
    have hq : q ∈ y.arrays ∧ q.2.data.obj = b.obj := by simpa using hm
    dsimp only at h2
    unfold arrayOpVar at h2
    cases hc : checks op q.2.data b (s.heap q.2.data.obj).unit (s.heap b.obj).unit with
    | error e => unfold transformInPlace at h2; rw [hc] at h2; simp at h2
    | ok u =>
      rw [transform_ok hc (ha q hq.1)] at h2
      simp only [Except.ok.injEq] at h2
      subst h2
      have hq' : s.heap q.2.data.obj = y.heap q.2.data.obj := by rw [hq.2]; exact hb
      refine ⟨?_, ?_, by rw [after_arrays, k2]⟩
      · intro p hp
        by_cases hpb : p.2.data.obj = b.obj
        · have hpq : p = q := by
            by_contra hne
            haveI : Std.Symm (fun p q : Nat × DA => p.2.data.obj ≠ q.2.data.obj) := ⟨fun _ _ h => h.symm⟩
            have := hd.forall hp hq.1 hne
            exact this (hpb.trans hq.2.symm)
          subst hpq
          refine ⟨u, ?_, ?_⟩
          · have := (checks_unit hc).2.2
            rwa [hq', hb] at this
          · rw [after_heap_self, hloc _ _ _ hq' hb]
        · obtain ⟨v, hv, h4⟩ := k3 p (by simpa using ⟨hp, hpb⟩)
          refine ⟨v, hv, ?_⟩
          rw [after_heap_ne _ _ _ _ _ (by rw [hq.2]; exact hpb), h4]
      · intro k hk
        rw [after_heap_ne _ _ _ _ _ (hk q hq.1), k1 k (fun x hx => hk x (hmem x hx).1)]

/-- `setSlice` of a variable succeeds if the slice is valid, the variable is writable, and the dimensions fit. Units are
not changed. -/
theorem setSliceVar_ok {copy : Ref → Ref → (Nat → InPlace.Obj U D) → D} {a b : Ref} {p : Slice} {st : State U D}
    (hv : SliceValid a p b st) (hr : a.readonly = false)
    (hdims : ∃ s, a.slice p = .ok s ∧ Sizes.includes s.dims b.dims = true) :
    ∃ st', setSliceVar copy a p b st = .ok st' ∧ st'.arrays = st.arrays ∧
      ∀ k, (st'.heap k).unit = (st.heap k).unit := by
  obtain ⟨s, hs, hi⟩ := hdims
  have hsl : s = { a with dims := s.dims, slice_ := true, bufSlice := true } := by
    unfold Ref.slice at hs
    split at hs
    · simp at hs
    · split at hs
      · simp at hs
      · simp only [Except.ok.injEq] at hs; subst hs; rfl
  have hc : checks (copyOp copy) s b (st.heap s.obj).unit (st.heap b.obj).unit = .ok (st.heap b.obj).unit := by
    unfold checks
    rw [hi]
    rw [hsl]
    simp [copyOp, hv.2.2.1, hv.2.2.2, hr, hv.2.1]
  refine ⟨after (copyOp copy) s b (st.heap b.obj).unit st, ?_, rfl, ?_⟩
  · unfold setSliceVar
    rw [validateSlice_of hv]
    simp only [andThen, hs]
    exact transform_ok hc (by rw [hsl]; exact fun _ => rfl)
  · intro k
    by_cases hk : k = s.obj
    · subst hk
      rw [after_heap_self]
      have : s.obj = a.obj := by rw [hsl]
      rw [this]; exact hv.2.2.1.symm
    · rw [after_heap_ne _ _ _ _ _ hk]

/-- C34 for `Dataset::setSlice(Slice, Dataset)`: holds if the items of the other dataset have no masks and their dimensions
fit. Neither is checked by the dry run, see `C34_wrong_for_set_slice`. -/
theorem C34_dataset_set_slice_partial {copy : Ref → Ref → (Nat → InPlace.Obj U D) → D}
    {differs : Ref → Ref → (Nat → InPlace.Obj U D) → Bool} {superset : DA → DA → Bool} {p : Slice} {b : List (Nat × DA)}
    {st st' : State U D} {e : Err}
    (hnames : ∀ x ∈ st.arrays, find st.arrays x.1 = some x.2)
    (hfit : ∀ x ∈ st.arrays, ∀ y, find b x.1 = some y → y.masks = [] ∧ x.2.data.readonly = false ∧
      ∃ s, x.2.data.slice p = .ok s ∧ Sizes.includes s.dims y.data.dims = true)
    (h : setSliceDataset copy differs superset p b st = .error (e, st')) : st' = st := by
  have hdry : ∀ l : List (Nat × DA), (∀ x ∈ l, x ∈ st.arrays) →
      (∀ e s, forAll (withItem b (validateSliceArray differs superset p)) l st = .error (e, s) → s = st) ∧
      (∀ s, forAll (withItem b (validateSliceArray differs superset p)) l st = .ok s → s = st ∧
        ∀ x ∈ l, ∃ y, find b x.1 = some y ∧ superset x.2 y = true ∧ SliceValid x.2.data p y.data st) := by
    intro l
    induction l with
    | nil => intro _; exact ⟨by simp [forAll], by simp [forAll]⟩
    | cons x l ih =>
      intro hl
      obtain ⟨i1, i2⟩ := ih fun z hz => hl z (by simp [hz])
      have hx := hl x (by simp)
      cases hf : find b x.1 with
      | none =>
        refine ⟨?_, ?_⟩
        · intro e s h
          simp only [forAll, withItem, hf, andThen, Except.error.injEq, Prod.mk.injEq] at h
          exact h.2.symm
        · intro s h
          simp [forAll, withItem, hf, andThen] at h
      | some y =>
        have hm := (hfit x hx y hf).1
        have hstep : withItem b (validateSliceArray differs superset p) x st =
            andThen (check st (superset x.2 y) .dataset) fun st => andThen (validateSlice x.2.data p y.data st) fun st => .ok st := by
          simp [withItem, hf, validateSliceArray, hnames x hx, hm, forAll]
        refine ⟨?_, ?_⟩
        · intro e s h
          rw [forAll] at h
          rcases andThen_error h with h | ⟨z, hz, h1⟩
          · rw [hstep] at h
            rcases andThen_error h with h | ⟨z, hz, h1⟩
            · exact check_error h
            · obtain ⟨-, rfl⟩ := check_ok hz
              rcases andThen_error h1 with h1 | ⟨w, hw, h2⟩
              · exact validateSlice_error h1
              · simp at h2
          · rw [hstep] at hz
            obtain ⟨w, hw, hz1⟩ := andThen_ok hz
            obtain ⟨-, rfl⟩ := check_ok hw
            obtain ⟨v, hv, hz2⟩ := andThen_ok hz1
            obtain ⟨rfl, -⟩ := validateSlice_ok hv
            simp only [Except.ok.injEq] at hz2
            subst hz2
            exact i1 _ _ h1
        · intro s h
          rw [forAll] at h
          obtain ⟨z, hz, h1⟩ := andThen_ok h
          rw [hstep] at hz
          obtain ⟨w, hw, hz1⟩ := andThen_ok hz
          obtain ⟨hsup, rfl⟩ := check_ok hw
          obtain ⟨v, hv, hz2⟩ := andThen_ok hz1
          obtain ⟨rfl, hval⟩ := validateSlice_ok hv
          simp only [Except.ok.injEq] at hz2
          subst hz2
          obtain ⟨rfl, hall⟩ := i2 _ h1
          refine ⟨rfl, ?_⟩
          intro q hq
          rcases List.mem_cons.1 hq with rfl | hq
          · exact ⟨y, hf, hsup, hval⟩
          · exact hall q hq
  have hrun : ∀ l : List (Nat × DA), (∀ x ∈ l, x ∈ st.arrays ∧
      ∃ y, find b x.1 = some y ∧ superset x.2 y = true ∧ SliceValid x.2.data p y.data st) → ∀ s : State U D,
      s.arrays = st.arrays → (∀ k, (s.heap k).unit = (st.heap k).unit) →
      ∃ s', forAll (withItem b (setSliceArray copy differs superset p)) l s = .ok s' := by
    intro l
    induction l with
    | nil => intro _ s _ _; exact ⟨s, rfl⟩
    | cons x l ih =>
      intro hl s harr hunit
      obtain ⟨hx, y, hf, hsup, hval⟩ := hl x (by simp)
      obtain ⟨hm, hr, hd⟩ := hfit x hx y hf
      have hval' : SliceValid x.2.data p y.data s :=
        ⟨hval.1, hval.2.1, by rw [hunit, hunit]; exact hval.2.2.1, hval.2.2.2⟩
      obtain ⟨s1, h1, ha1, hu1⟩ := setSliceVar_ok (copy := copy) hval' hr hd
      obtain ⟨s2, h2⟩ := ih (fun z hz => hl z (by simp [hz])) s1 (ha1.trans harr) (fun k => (hu1 k).trans (hunit k))
      refine ⟨s2, ?_⟩
      have : withItem b (setSliceArray copy differs superset p) x s = .ok s1 := by
        have hn := hnames x hx
        rw [← harr] at hn
        simp [withItem, hf, setSliceArray, hn, hsup, validateSlice_of hval', andThen, setMasksSlice, hm, forAll, h1]
      simp only [forAll, this, andThen]; exact h2
  rcases andThen_error h with h | ⟨y, hy, h1⟩
  · exact (hdry _ fun _ h => h).1 _ _ h
  · obtain ⟨rfl, hall⟩ := (hdry _ fun _ h => h).2 _ hy
    obtain ⟨s, hs⟩ := hrun y.arrays (fun x hx => ⟨hx, hall x hx⟩) y rfl (fun _ => rfl)
    rw [hs] at h1; simp at h1

/-! ### Examples and cases where C34 and C56 fail -/

/-- Addition: units must agree. Data is one number per object. -/
def addOp : Op Nat Int :=
  { unit := fun u v => if u = v then .ok u else .error .unit
    data := fun a b h => (h a.obj).data + (h b.obj).data
    types := fun _ _ => true }

/-- Multiplication: exponents of the unit are added. -/
def mulOp : Op Nat Int :=
  { unit := fun u v => .ok (u + v)
    data := fun a b h => (h a.obj).data * (h b.obj).data
    types := fun _ _ => true }

/-- Masks: unit 0, `bool` is dtype 0. -/
def orOps : MaskOps Nat Int :=
  { or_ := { unit := fun u v => if u = 0 ∧ v = 0 then .ok 0 else .error .unit
             data := fun a b h => max (h a.obj).data (h b.obj).data
             types := fun s t => s == 0 && t == 0 }
    differs := fun a b h => decide ((h a.obj).data < (h b.obj).data)
    boolType := 0
    none_ := 0 }

theorem orOps_std : orOps.Std := ⟨rfl, rfl, fun _ _ => rfl, fun _ _ => rfl⟩

/-- Objects 0 to 7 with given units and data. -/
def heapOf (l : List (Nat × Int)) : Nat → InPlace.Obj Nat Int := fun k => ⟨(l.getD k (0, 0)).1, (l.getD k (0, 0)).2⟩

/-- Two items (objects 0 and 1, units 1 and 2) with a mask each (objects 2 and 3, the latter 0-D). -/
def exampleState : State Nat Int :=
  { heap := heapOf [(1, 10), (2, 20), (0, 0), (0, 0), (1, 5), (2, 6), (0, 1), (0, 1)]
    next := 8
    arrays := [(0, ⟨⟨0, [(7, 3)], 1, false, false, false, false, 0⟩, [], [(0, ⟨2, [(7, 3)], 0, false, false, false, false, 0⟩)], false⟩),
               (1, ⟨⟨1, [(7, 3)], 1, false, false, false, false, 0⟩, [], [(0, ⟨3, [], 0, false, false, false, false, 0⟩)], false⟩)] }

/-- A variable referring to object `k` with dims `d`. -/
def refTo (k : Nat) (d : Dims) : Ref := { obj := k, dims := d, dtype := 1 }

/-- A mask referring to object `k` with dims `d`. -/
def maskTo (k : Nat) (d : Dims) : Ref := { obj := k, dims := d, dtype := 0 }

example : ∃ e st', transformInPlace false addOp (refTo 0 [(7, 3)]) (refTo 5 [(7, 3)]) exampleState = .error (e, st') :=
  ⟨_, _, rfl⟩

/-! The hypotheses of the theorems above hold in the following cases, in all of which the operation throws (other than in the case of C56). -/

example := C34_variable_partial (op := addOp) (a := refTo 0 [(7, 3)]) (b := refTo 5 [(7, 3)]) (st := exampleState) (by simp [CheckedUnit, refTo]) rfl
example := (C34_dry_run_is_faithful (op := addOp) (a := refTo 0 [(7, 3)]) (b := refTo 5 [(7, 3)]) (st := exampleState)
  (by simp [CheckedUnit, refTo]) .unit).1 ⟨_, rfl⟩
example := C34_data_array_variable_partial (op := addOp) (a := ⟨refTo 0 [(7, 3)], [], [(0, maskTo 2 [(7, 3)])], false⟩) (b := refTo 4 [(8, 2)])
  (st := exampleState) (by simp [CheckedUnit, refTo]) rfl
example := C34_set_slice_variable (copy := fun _ b h => (h b.obj).data) (a := refTo 0 [(7, 3)]) (b := refTo 4 [(8, 2)]) (p := ⟨7, 0, 2, 1⟩)
  (st := exampleState) rfl
example := C34_masks_checked (mo := orOps) (i := 0) (ro := false) (st := exampleState)
  (masks := [(1, maskTo 6 [(7, 3)]), (0, maskTo 4 [(7, 3)])]) (m := (0, maskTo 4 [(7, 3)])) (by simp)
  (.inr ⟨maskTo 2 [(7, 3)], by decide, by decide⟩)
example := C34_data_array_partial (mo := orOps) (op := addOp) (i := 0) (b := ⟨refTo 5 [(7, 3)], [], [], false⟩) (st := exampleState)
  (a := ⟨refTo 0 [(7, 3)], [], [(0, maskTo 2 [(7, 3)])], false⟩) orOps_std (by decide) (by simp [CheckedUnit, refTo]) (.inl rfl) rfl
example := C34_dataset_variable_partial (op := mulOp) (b := refTo 4 [(8, 2)]) (st := exampleState)
  (.inr (by simp [exampleState])) (by simp [exampleState, CheckedUnit]) rfl
example := C56_every_item_once_partial (op := mulOp) (b := refTo 0 [(7, 3)]) (st := exampleState)
  (by intro a g h h1 h2; simp only [mulOp, h1, h2]) (by simp [exampleState]) (by simp [exampleState, CheckedUnit]) rfl

example : (datasetOp orOps addOp [(0, ⟨refTo 4 [(7, 3)], [], [(0, maskTo 6 [(7, 3)])], false⟩),
    (1, ⟨refTo 5 [(7, 3)], [], [(0, maskTo 7 [])], false⟩)] exampleState).toOption.map
      (fun s => ((s.heap 0).data, (s.heap 1).data, (s.heap 2).data, (s.heap 3).data)) = some (15, 26, 1, 1) := by decide

/-- The hypotheses of `C34_dataset_partial` hold here: masks fit, and the second item fails because of its unit. -/
example : ∃ e st', datasetOp orOps addOp [(0, ⟨refTo 4 [(7, 3)], [], [(0, maskTo 6 [(7, 3)])], false⟩),
    (1, ⟨refTo 4 [(7, 3)], [], [(0, maskTo 7 [])], false⟩)] exampleState = .error (e, st') ∧
    MaskFits orOps exampleState 0 (0, maskTo 6 [(7, 3)]) ∧ MaskFits orOps exampleState 1 (0, maskTo 7 []) := by
  refine ⟨_, _, rfl, ⟨by decide, ?_⟩, ⟨by decide, ?_⟩⟩
  · intro cur h
    have : cur = maskTo 2 [(7, 3)] := by
      have h' : find (exampleState.masks 0) 0 = some (maskTo 2 [(7, 3)]) := by decide
      exact Option.some.inj (h.symm.trans h')
    subst this; decide
  · intro cur h
    have : cur = maskTo 3 [] := by
      have h' : find (exampleState.masks 1) 0 = some (maskTo 3 []) := by decide
      exact Option.some.inj (h.symm.trans h')
    subst this; decide

/-- C34 fails for `DataArray op= DataArray`: the mask (object 2) is updated, then the units of the data
do not match. -/
theorem C34_wrong_for_data_array :
    ∃ e st', arrayOp orOps addOp 0 ⟨refTo 5 [(7, 3)], [], [(0, maskTo 6 [(7, 3)])], false⟩ exampleState = .error (e, st') ∧
      (st'.heap 2).data ≠ (exampleState.heap 2).data := ⟨_, _, rfl, by decide⟩

/-- The first mask would be added, the second one has a unit: nothing happens. -/
example : ((unionOrInPlace orOps 0 false [(1, maskTo 6 [(7, 3)]), (0, maskTo 4 [(7, 3)])] exampleState).toOption).isNone ∧
    find (exampleState.masks 0) 0 = some (maskTo 2 [(7, 3)]) ∧ (exampleState.heap 4).unit ≠ orOps.none_ := by decide

/-- C34 fails for masks alone: a first mask is inserted, then a second one does not fit. -/
theorem C34_wrong_for_masks :
    ∃ e st', unionOrInPlace orOps 1 false [(1, maskTo 6 [(7, 3)]), (0, maskTo 7 [(7, 3)])] exampleState =
        .error (e, st') ∧ st'.masks 1 ≠ exampleState.masks 1 := ⟨_, _, rfl, by decide⟩

/-- C34 fails for `Dataset op= Dataset`: the dry run does not consider masks. The first item (object 0) is modified
although the second one throws because of its mask. -/
theorem C34_wrong_for_dataset_masks :
    ∃ e st', datasetOp orOps addOp [(0, ⟨refTo 4 [(7, 3)], [], [], false⟩),
      (1, ⟨refTo 5 [(7, 3)], [], [(0, maskTo 6 [(7, 3)])], false⟩)] exampleState = .error (e, st') ∧
      (st'.heap 0).data ≠ (exampleState.heap 0).data := ⟨_, _, rfl, by decide⟩

/-- C34 fails for `Dataset *= Dataset` if the operand of the second item refers to the data of the first one: its unit changes
from 0 to 1, so that the unit of the second item, a partial view, would have to change after all. -/
theorem C34_wrong_for_aliases :
    ∃ (st : State Nat Int) (b : List (Nat × DA)) (e : Err) (st' : State Nat Int),
      (∀ p ∈ b, p.2.masks = []) ∧ datasetOp orOps mulOp b st = .error (e, st') ∧
      (st'.heap 0).data ≠ (st.heap 0).data :=
  ⟨{ heap := heapOf [(0, 10), (2, 20), (1, 3)], next := 3,
     arrays := [(0, ⟨refTo 0 [(7, 3)], [], [], false⟩),
                (1, ⟨{ refTo 1 [(7, 3)] with slice_ := true, bufSlice := true }, [], [], false⟩)] },
   [(0, ⟨refTo 2 [(7, 3)], [], [], false⟩), (1, ⟨refTo 0 [(7, 3)], [], [], false⟩)], _, _,
   by decide, rfl, by decide⟩

/-- C34 fails for a binned variable whose buffer is a partial view: the check before the modification only looks at
the outer variable. -/
theorem C34_wrong_for_bins :
    ∃ (st : State Nat Int) (a b : Ref) (e : Err) (st' : State Nat Int),
      transformInPlace false mulOp a b st = .error (e, st') ∧ (st'.heap 0).data ≠ (st.heap 0).data :=
  ⟨{ heap := heapOf [(0, 10), (2, 20)], next := 2, arrays := [] },
   { refTo 0 [(7, 3)] with bufSlice := true }, refTo 1 [(7, 3)], _, _, rfl, by decide⟩

/-- Copying data. -/
def copyData : Ref → Ref → (Nat → InPlace.Obj Nat Int) → Int := fun _ b h => (h b.obj).data

/-- C34 fails for `Dataset::setSlice(Slice, Variable)`: there is no dry run. The unit of the second item does not
match. -/
theorem C34_wrong_for_set_slice_variable :
    ∃ e st', setSliceDatasetVar copyData ⟨7, 0, 2, 1⟩ (refTo 4 []) exampleState = .error (e, st') ∧
      (st'.heap 0).data ≠ (exampleState.heap 0).data := ⟨_, _, rfl, by decide⟩

/-- C34 fails for `Dataset::setSlice(Slice, Dataset)`: the dry run does not consider dimensions. The mask (object 2) of the first item
is modified before the dimensions of the data turn out not to match. -/
theorem C34_wrong_for_set_slice :
    ∃ e st', setSliceDataset copyData (fun _ _ _ => false) (fun _ _ => true) ⟨7, 0, 2, 1⟩
        [(0, ⟨refTo 4 [(8, 2)], [], [(0, maskTo 6 [])], false⟩), (1, ⟨refTo 5 [(8, 2)], [], [], false⟩)] exampleState =
        .error (e, st') ∧ (st'.heap 2).data ≠ (exampleState.heap 2).data := ⟨_, _, rfl, by decide⟩

/-- A case of `C34_dataset_set_slice_partial`: the unit of the second item does not match. -/
example := C34_dataset_set_slice_partial (copy := copyData) (differs := fun _ _ _ => false) (superset := fun _ _ => true) (p := ⟨7, 0, 2, 1⟩)
  (b := [(0, ⟨refTo 4 [(7, 2)], [], [], false⟩), (1, ⟨refTo 4 [(7, 2)], [], [], false⟩)]) (st := exampleState) (by decide)
  (by
    intro x hx y hy
    simp only [exampleState, List.mem_cons, List.not_mem_nil, or_false] at hx
    rcases hx with rfl | rfl <;> (cases hy; exact ⟨rfl, rfl, _, rfl, by decide⟩)) rfl

/-- Another one, where nothing is thrown. -/
example : (setSliceDataset copyData (fun _ _ _ => false) (fun _ _ => true) ⟨7, 0, 2, 1⟩
    [(0, ⟨refTo 4 [(7, 2)], [], [], false⟩), (1, ⟨refTo 5 [(7, 2)], [], [], false⟩)] exampleState).toOption.map
      (fun s => ((s.heap 0).data, (s.heap 1).data)) = some (5, 6) := by decide

/-- Elementwise addition on an array of two halves; `part` selects the half. -/
def addHalves : Op Nat (Int × Int) :=
  { unit := fun u v => if u = v then .ok u else .error .unit
    data := fun a b h =>
      let y := if b.part = 0 then (h b.obj).data.1 else (h b.obj).data.2
      let x := (h a.obj).data
      if a.part = 0 then (x.1 + y, x.2) else (x.1, x.2 + y)
    types := fun _ _ => true }

/-- Items `x` and `y` are the two halves of one array, `z` is another array. -/
def sharedState : State Nat (Int × Int) :=
  { heap := fun k => if k = 0 then ⟨1, (10, 20)⟩ else ⟨1, (5, 5)⟩
    next := 2
    arrays := [(0, ⟨{ refTo 0 [(7, 3)] with slice_ := true, bufSlice := true, part := 0 }, [], [], false⟩),
               (1, ⟨{ refTo 0 [(7, 3)] with slice_ := true, bufSlice := true, part := 1 }, [], [], false⟩),
               (2, ⟨refTo 1 [(7, 3)], [], [], false⟩)] }

/-- C56 fails if several items share the buffer of the operand: only the last one is modified. With `v = (10, 20)`, items
`x = v[0]` and `y = v[1]`, `ds += v[0]` should give `x = 20`, `y = 30`, but `x` is left at 10. -/
theorem C56_wrong_for_shared_buffer :
    (datasetOpVar addHalves { refTo 0 [(7, 3)] with part := 0 } sharedState).toOption.map (fun s => (s.heap 0).data) =
      some (10, 30) := by decide

/-- A case of `C56_every_item_once_partial`: the operand is the data of the first item. -/
example : (datasetOpVar mulOp (refTo 0 [(7, 3)]) exampleState).toOption.map
      (fun s => ((s.heap 0).unit, (s.heap 0).data, (s.heap 1).unit, (s.heap 1).data)) = some (2, 100, 3, 200) := by decide

end Scipp.Props
