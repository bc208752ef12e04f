import Verif.Props.InPlace
/-!
C34 continued: which coords are checked, assigning to slices in the presence of masks, and what becomes of masks
that did not exist before. The specification is in the statements: "the coord of the right-hand side is missing", "the mask
fits the slice" (`MaskSliceFits`), "this object is written" (`Written`).
-/
namespace Scipp.Props
open Scipp InPlace
variable {U D : Type} [DecidableEq U]

omit [DecidableEq U] in
theorem coordsSuperset_iff (a b : List (Nat × Nat)) : coordsSuperset a b = true ↔ ∀ c ∈ b, c ∈ a := by
  unfold coordsSuperset
  rw [List.all_eq_true]
  constructor
  · intro h c hc
    obtain ⟨q, hq, e⟩ := List.any_eq_true.1 (h c hc)
    rw [beq_iff_eq] at e
    exact e ▸ hq
  · intro h c hc
    exact List.any_eq_true.2 ⟨c, h c hc, by simp⟩

/-- C34: if a coord of the right-hand side is missing or different on the left, `DataArray op= DataArray` and its dry run
throw before anything is modified. -/
theorem C34_coords_checked (mo : MaskOps U D) (op : Op U D) {i : Nat} {a b : DA} {st : State U D} {c : Nat × Nat}
    (hi : find st.arrays i = some a) (hc : c ∈ b.coords) (hn : c ∉ a.coords) :
    arrayOp mo op i b st = .error (.dataset, st) ∧ dryRun op i b st = .error (.dataset, st) := by
  have h : coordsSuperset a.coords b.coords = false := by
    rw [Bool.eq_false_iff]
    exact fun e => hn ((coordsSuperset_iff _ _).1 e c hc)
  constructor
  · simp [arrayOp, hi, h, check, andThen]
  · simp [dryRun, hi, h, check, andThen]

/-- The converse of `C34_coords_checked`: coords the left-hand side has do not prevent the operation, it then is the
operation on the data. -/
theorem C34_coords_accepted (mo : MaskOps U D) (op : Op U D) {i : Nat} {a b : DA} {st : State U D}
    (hi : find st.arrays i = some a) (hc : ∀ c ∈ b.coords, c ∈ a.coords) (hm : b.masks = []) :
    arrayOp mo op i b st = arrayOpVar op a b.data st ∧
      dryRun op i b st = transformInPlace true op a.data b.data st := by
  have h := (coordsSuperset_iff _ _).2 hc
  constructor
  · simp [arrayOp, hi, h, andThen, unionOrInPlace, hm, forAll, arrayOpVar]
  · simp [dryRun, hi, h, andThen]

/-- C34 for `Dataset op= Dataset`: if any item has a coord that its counterpart lacks, or no counterpart, nothing is modified,
also not the items before it. -/
theorem C34_dataset_coords_checked (mo : MaskOps U D) (op : Op U D) {b : List (Nat × DA)} {st : State U D} {p : Nat × DA}
    (hp : p ∈ b) (hc : ∀ a, find st.arrays p.1 = some a → ∃ c ∈ p.2.coords, c ∉ a.coords) :
    ∃ e, datasetOp mo op b st = .error (e, st) := by
  obtain ⟨e, he⟩ := forAll_first_error (f := fun p : Nat × DA => dryRun op p.1 p.2) (st := st)
    (fun x s e s' h => by
      simp only [dryRun] at h
      split at h
      · simp only [Except.error.injEq, Prod.mk.injEq] at h; exact h.2.symm
      · rcases andThen_error h with h | ⟨y, hy, h1⟩
        · exact check_error h
        · obtain ⟨-, rfl⟩ := check_ok hy
          exact dry_error h1)
    (fun x s s' h => by
      simp only [dryRun] at h
      split at h
      · simp at h
      · obtain ⟨y, hy, h1⟩ := andThen_ok h
        obtain ⟨-, rfl⟩ := check_ok hy
        exact (dry_ok h1).1) b ⟨p, hp, fun s' hs => by
      cases hf : find st.arrays p.1 with
      | none => simp [dryRun, hf] at hs
      | some a =>
        obtain ⟨c, h1, h2⟩ := hc a hf
        have := (C34_coords_checked mo op hf h1 h2).2
        simp only [this] at hs
        cases hs⟩
  refine ⟨e, ?_⟩
  unfold datasetOp
  rw [he]
  rfl

/-! ### Masks that did not exist before -/

/-- `k` is the object of a mask on the left that is combined with one of the given masks. -/
def Combined (st : State U D) (i : Nat) (ms : List (Nat × Ref)) (k : Nat) : Prop :=
  ∃ m ∈ ms, ∃ cur, find (st.masks i) m.1 = some cur ∧ cur.obj = k

omit [DecidableEq U] in
theorem find_append_self {α : Type} (l : List (Nat × α)) (k : Nat) (x : α) (h : find l k = none) :
    find (l ++ [(k, x)]) k = some x := by
  unfold find at h ⊢
  rw [Option.map_eq_none_iff] at h
  rw [List.find?_append, h]
  simp

/-- One step of the second loop of `union_or_in_place`: which objects and which entries it changes. -/
theorem unionOrApply_frame {mo : MaskOps U D} {i : Nat} {m : Nat × Ref} {st st' : State U D} {a : DA}
    (ha : find st.arrays i = some a)
    (h : unionOrApply mo i m st = .ok st') (hs : ∀ cur, find (st.masks i) m.1 = some cur → CheckedUnit cur) :
    st.next ≤ st'.next ∧ (∃ a', find st'.arrays i = some a') ∧
    (∀ k, k ≠ m.1 → find (st'.masks i) k = find (st.masks i) k) ∧
    (∀ cur, find (st.masks i) m.1 = some cur → find (st'.masks i) m.1 = some cur) ∧
    (∀ k, k < st.next → (∀ cur, find (st.masks i) m.1 = some cur → cur.obj ≠ k) → st'.heap k = st.heap k) ∧
    (find (st.masks i) m.1 = none → find (st'.masks i) m.1 =
      some { m.2 with obj := st.next, readonly := false, slice_ := false, bufSlice := false } ∧
        st'.heap st.next = st.heap m.2.obj ∧ st.next < st'.next) := by
  unfold unionOrApply at h
  cases hf : find (st.masks i) m.1 with
  | none =>
    rw [hf] at h
    simp only [Except.ok.injEq] at h
    subst h
    have hself := masks_setMasks_self
      ({ st with heap := Function.update st.heap st.next (st.heap m.2.obj), next := st.next + 1 } : State U D) i
      (st.masks i ++ [(m.1, { m.2 with obj := st.next, readonly := false, slice_ := false, bufSlice := false })])
      (a := a) ha
    refine ⟨by simp [State.setMasks], ?_, ?_, by simp, ?_, fun _ => ⟨?_, ?_, by simp [State.setMasks]⟩⟩
    · simp only [State.setMasks, find_map_masks, ha]
      exact ⟨_, rfl⟩
    · intro k hk
      rw [hself, find_append _ _ _ hk]
    · intro k hk _
      simp only [State.setMasks]
      rw [Function.update_of_ne (Nat.ne_of_lt hk)]
    · rw [hself, find_append_self _ _ _ hf]
    · simp [State.setMasks]
  | some cur =>
    rw [hf] at h
    dsimp only at h
    by_cases hr : cur.readonly = true
    · rw [if_pos hr] at h
      cases h
      exact ⟨Nat.le_refl _, ⟨a, ha⟩, fun _ _ => rfl, fun c hc => hc ▸ hf, fun _ _ _ => rfl, by simp⟩
    · rw [if_neg hr] at h
      cases hc : checks mo.or_ cur m.2 (st.heap cur.obj).unit (st.heap m.2.obj).unit with
      | error e => simp [transformInPlace, hc] at h
      | ok u =>
        rw [transform_ok hc (hs cur hf)] at h
        cases h
        refine ⟨Nat.le_refl _, ⟨a, ha⟩, fun _ _ => rfl, fun c hc => hc ▸ hf, ?_, by simp⟩
        intro k _ hk
        exact after_heap_ne _ _ _ _ _ (Ne.symm (hk cur rfl))

/-- The second loop of `union_or_in_place`. -/
theorem forAll_unionOrApply_frame {mo : MaskOps U D} {i : Nat} {ms : List (Nat × Ref)} {st st' : State U D} {a : DA}
    (ha : find st.arrays i = some a) (hn : (ms.map Prod.fst).Nodup)
    (hs : ∀ k cur, find (st.masks i) k = some cur → cur.obj < st.next ∧ CheckedUnit cur)
    (h : forAll (unionOrApply mo i) ms st = .ok st') :
    st.next ≤ st'.next ∧ (∀ k, k ∉ ms.map Prod.fst → find (st'.masks i) k = find (st.masks i) k) ∧
    (∀ k cur, find (st.masks i) k = some cur → find (st'.masks i) k = some cur) ∧
    (∀ k, k < st.next → ¬ Combined st i ms k → st'.heap k = st.heap k) ∧
    ∀ m ∈ ms, find (st.masks i) m.1 = none → m.2.obj < st.next → ¬ Combined st i ms m.2.obj → ∃ r,
      find (st'.masks i) m.1 = some r ∧ r.readonly = false ∧ r.slice_ = false ∧ r.dims = m.2.dims ∧ r.dtype = m.2.dtype ∧
      st.next ≤ r.obj ∧ st'.heap r.obj = st.heap m.2.obj := by
  induction ms generalizing st a with
  | nil =>
    simp only [forAll, Except.ok.injEq] at h
    subst h
    exact ⟨Nat.le_refl _, fun _ _ => rfl, fun _ _ h => h, fun _ _ _ => rfl, by simp⟩
  | cons m ms ih =>
    rw [List.map_cons, List.nodup_cons] at hn
    obtain ⟨s1, h1, h2⟩ := andThen_ok h
    obtain ⟨f1, ⟨a', f2⟩, f3, f4, f5, f6⟩ := unionOrApply_frame ha h1 (fun cur hc => (hs m.1 cur hc).2)
    have hs1 : ∀ k cur, find (s1.masks i) k = some cur → cur.obj < s1.next ∧ CheckedUnit cur := by
      intro k cur hc
      by_cases hk : k = m.1
      · subst hk
        cases hf : find (st.masks i) m.1 with
        | none =>
          rw [(f6 hf).1] at hc
          cases hc
          exact ⟨(f6 hf).2.2, by simp [CheckedUnit]⟩
        | some c =>
          rw [f4 c hf] at hc
          cases hc
          exact ⟨Nat.lt_of_lt_of_le (hs _ _ hf).1 f1, (hs _ _ hf).2⟩
      · rw [f3 k hk] at hc
        exact ⟨Nat.lt_of_lt_of_le (hs _ _ hc).1 f1, (hs _ _ hc).2⟩
    obtain ⟨g1, g2, g3, g4, g5⟩ := ih f2 hn.2 hs1 h2
    -- combined objects of the rest are combined objects of the whole
    have hcomb : ∀ k, Combined s1 i ms k → Combined st i (m :: ms) k := by
      rintro k ⟨x, hx, cur, hc, e⟩
      have hk : x.1 ≠ m.1 := fun e => hn.1 (e ▸ List.mem_map_of_mem hx)
      rw [f3 _ hk] at hc
      exact ⟨x, List.mem_cons_of_mem _ hx, cur, hc, e⟩
    have hhead : ∀ k, ¬ Combined st i (m :: ms) k → ∀ cur, find (st.masks i) m.1 = some cur → cur.obj ≠ k :=
      fun k hk cur hc e => hk ⟨m, by simp, cur, hc, e⟩
    refine ⟨Nat.le_trans f1 g1, ?_, ?_, ?_, ?_⟩
    · intro k hk
      simp only [List.map_cons, List.mem_cons, not_or] at hk
      rw [g2 k hk.2, f3 k hk.1]
    · intro k cur hc
      refine g3 k cur ?_
      by_cases hk : k = m.1
      · subst hk; exact f4 cur hc
      · rw [f3 k hk]; exact hc
    · intro k hk hnc
      rw [g4 k (Nat.lt_of_lt_of_le hk f1) (fun hc => hnc (hcomb k hc)), f5 k hk (hhead k hnc)]
    · intro x hx hnone hlt hnc
      rcases List.mem_cons.1 hx with rfl | hx
      · obtain ⟨e1, e2, e3⟩ := f6 hnone
        refine ⟨_, g3 _ _ e1, rfl, rfl, rfl, rfl, Nat.le_refl _, ?_⟩
        rw [g4 st.next e3, e2]
        rintro ⟨y, hy, cur, hc, e⟩
        have hk : y.1 ≠ x.1 := fun e => hn.1 (e ▸ List.mem_map_of_mem hy)
        rw [f3 _ hk] at hc
        exact absurd (e ▸ (hs _ _ hc).1) (Nat.lt_irrefl _)
      · have hk : x.1 ≠ m.1 := fun e => hn.1 (e ▸ List.mem_map_of_mem hx)
        obtain ⟨r, r1, r2, r3, r4, r5, r6, r7⟩ := g5 x hx (by rw [f3 _ hk]; exact hnone) (Nat.lt_of_lt_of_le hlt f1)
          (fun hc => hnc (hcomb _ hc))
        exact ⟨r, r1, r2, r3, r4, r5, Nat.le_trans f1 r6, by rw [r7, f5 _ hlt (hhead _ hnc)]⟩

/-- Existing masks, as far as they matter here: their objects exist, and they are not binned. -/
def MasksExist (st : State U D) (i : Nat) : Prop :=
  ∀ k cur, find (st.masks i) k = some cur → cur.obj < st.next ∧ CheckedUnit cur

/-- C37 with sharing: if `|=` of masks succeeds, then every mask that did not exist before is a writable copy of the mask on the
right, with an object of its own, so that later changes of one do not affect the other. Existing masks keep their identity, and
objects other than theirs are not modified. -/
theorem C37_new_mask_is_a_copy {mo : MaskOps U D} {i : Nat} {ro : Bool} {ms : List (Nat × Ref)} {st st' : State U D}
    (ha : (find st.arrays i).isSome) (hn : (ms.map Prod.fst).Nodup) (hs : MasksExist st i)
    (h : unionOrInPlace mo i ro ms st = .ok st') :
    (∀ m ∈ ms, find (st.masks i) m.1 = none → m.2.obj < st.next → ¬ Combined st i ms m.2.obj → ∃ r,
      find (st'.masks i) m.1 = some r ∧ r.readonly = false ∧ r.slice_ = false ∧ r.dims = m.2.dims ∧ r.dtype = m.2.dtype ∧
      st.next ≤ r.obj ∧ st'.heap r.obj = st.heap m.2.obj) ∧
    (∀ k cur, find (st.masks i) k = some cur → find (st'.masks i) k = some cur) ∧
    (∀ k, k ∉ ms.map Prod.fst → find (st'.masks i) k = find (st.masks i) k) ∧
    ∀ k, k < st.next → ¬ Combined st i ms k → st'.heap k = st.heap k := by
  obtain ⟨a, ha⟩ := Option.isSome_iff_exists.1 ha
  obtain ⟨s1, h1, h2⟩ := andThen_ok h
  have e : s1 = st := (forAll_checks (Q := fun _ _ => True) (fun _ _ _ _ h => unionOrCheck_error h)
    (fun _ _ _ h => ⟨unionOrCheck_state h, trivial⟩) _ st).2 s1 h1 |>.1
  subst e
  obtain ⟨-, f2, f3, f4, f5⟩ := forAll_unionOrApply_frame ha hn hs h2
  exact ⟨f5, f3, f2, f4⟩

/-! ### Assigning to a slice in the presence of masks -/

/-- The mask `cur` is written when assigning to the slice `p`. -/
def Writes (p : Slice) (cur : Ref) : Prop := cur.readonly = false ∧ Sizes.contains cur.dims p.dim = true

/-- The mask `m` of the right-hand side can be assigned to the slice `p` of `cur`: either `cur` cannot be written and `m` does not
differ, or it can be written and unit, dtype and dimensions fit. -/
def MaskSliceFits (differs : Ref → Ref → (Nat → InPlace.Obj U D) → Bool) (p : Slice) (st : State U D) (cur m : Ref) : Prop :=
  (¬ Writes p cur ∧ differs cur m st.heap = false) ∨
  (Writes p cur ∧ SliceValid cur p m st ∧ ∃ s, cur.slice p = .ok s ∧ Sizes.includes s.dims m.dims = true)

/-- C34: if a mask of the right-hand side does not exist on the left, or cannot be written there and differs, then assigning
masks to a slice throws before anything is modified, also masks before it. -/
theorem C34_set_slice_masks_checked (copy : Ref → Ref → (Nat → InPlace.Obj U D) → D)
    (differs : Ref → Ref → (Nat → InPlace.Obj U D) → Bool) {i : Nat} {p : Slice} {masks : List (Nat × Ref)} {st : State U D}
    {m : Nat × Ref} (hm : m ∈ masks)
    (h : ∀ cur, find (st.masks i) m.1 = some cur → ¬ Writes p cur ∧ differs cur m.2 st.heap = true) :
    ∃ e, setMasksSlice copy differs i p masks st = .error (e, st) := by
  obtain ⟨e, he⟩ := forAll_first_error (f := validateMask differs i p) (st := st)
    (fun x s e s' h => by
      unfold validateMask at h
      split at h
      · simp only [Except.error.injEq, Prod.mk.injEq] at h; exact h.2.symm
      · exact check_error h)
    (fun x s s' h => by
      unfold validateMask at h
      split at h
      · simp at h
      · exact (check_ok h).2) masks ⟨m, hm, fun s' hs => by
      unfold validateMask at hs
      split at hs
      · simp at hs
      · rename_i cur hc
        obtain ⟨h1, h2⟩ := h cur hc
        have h3 := (check_ok hs).1
        unfold Writes at h1
        rw [h2] at h3
        cases hr : cur.readonly <;> cases hd : Sizes.contains cur.dims p.dim <;> simp_all⟩
  refine ⟨e, ?_⟩
  unfold setMasksSlice
  rw [he]
  rfl

/-- `setSlice` of a variable writes one object. -/
theorem setSliceVar_writes {copy : Ref → Ref → (Nat → InPlace.Obj U D) → D} {a b : Ref} {p : Slice} {st st' : State U D}
    (h : setSliceVar copy a p b st = .ok st') : st'.arrays = st.arrays ∧ st'.next = st.next ∧
      ∀ k, k ≠ a.obj → st'.heap k = st.heap k := by
  obtain ⟨y, hy, h1⟩ := andThen_ok h
  obtain ⟨rfl, -⟩ := validateSlice_ok hy
  cases hs : a.slice p with
  | error e => rw [hs] at h1; simp at h1
  | ok s =>
    rw [hs] at h1
    have hsl : s = { a with dims := s.dims, slice_ := true, bufSlice := true } := by
      unfold Ref.slice at hs
      split at hs
      · simp at hs
      · split at hs
        · simp at hs
        · simp only [Except.ok.injEq] at hs; subst hs; rfl
    dsimp only at h1
    cases hc : checks (copyOp copy) s b (y.heap s.obj).unit (y.heap b.obj).unit with
    | error e => simp [transformInPlace, hc] at h1
    | ok u =>
      rw [transform_ok hc (by rw [hsl]; exact fun _ => rfl)] at h1
      cases h1
      refine ⟨rfl, rfl, fun k hk => after_heap_ne _ _ _ _ _ ?_⟩
      rw [hsl]; exact hk

/-- Assigning to a slice of masks succeeds if all of them fit. Only masks that can be written are written, all units stay. -/
theorem setMasksSlice_ok (copy : Ref → Ref → (Nat → InPlace.Obj U D) → D)
    (differs : Ref → Ref → (Nat → InPlace.Obj U D) → Bool) {i : Nat} {p : Slice} {masks : List (Nat × Ref)} {st : State U D}
    (h : ∀ m ∈ masks, ∃ cur, find (st.masks i) m.1 = some cur ∧ MaskSliceFits differs p st cur m.2) :
    ∃ st', setMasksSlice copy differs i p masks st = .ok st' ∧ st'.arrays = st.arrays ∧
      (∀ k, (st'.heap k).unit = (st.heap k).unit) ∧
      ∀ k, (∀ m ∈ masks, ∀ cur, find (st.masks i) m.1 = some cur → Writes p cur → cur.obj ≠ k) → st'.heap k = st.heap k := by
  have hval : forAll (validateMask differs i p) masks st = .ok st := by
    refine forAll_ok_of _ fun m hm => ?_
    obtain ⟨cur, hc, hf⟩ := h m hm
    unfold validateMask
    rw [hc]
    rcases hf with ⟨-, hf⟩ | ⟨⟨h1, h2⟩, -⟩
    · simp [hf]
    · simp [h1, h2]
  have hrun : ∀ l : List (Nat × Ref), (∀ m ∈ l, m ∈ masks) → ∀ s : State U D, s.arrays = st.arrays →
      (∀ k, (s.heap k).unit = (st.heap k).unit) →
      ∃ s', forAll (setMaskSlice copy i p) l s = .ok s' ∧ s'.arrays = st.arrays ∧
        (∀ k, (s'.heap k).unit = (st.heap k).unit) ∧
        ∀ k, (∀ m ∈ l, ∀ cur, find (st.masks i) m.1 = some cur → Writes p cur → cur.obj ≠ k) → s'.heap k = s.heap k := by
    intro l
    induction l with
    | nil => intro _ s h1 h2; exact ⟨s, rfl, h1, h2, fun _ _ => rfl⟩
    | cons m l ih =>
      intro hl s h1 h2
      obtain ⟨cur, hc, hf⟩ := h m (hl m (by simp))
      have hc' : find (s.masks i) m.1 = some cur := by
        have : s.masks i = st.masks i := by simp only [State.masks, h1]
        rw [this]; exact hc
      have hstep : ∃ s1, setMaskSlice copy i p m s = .ok s1 ∧ s1.arrays = s.arrays ∧
          (∀ k, (s1.heap k).unit = (s.heap k).unit) ∧ ∀ k, (Writes p cur → cur.obj ≠ k) → s1.heap k = s.heap k := by
        unfold setMaskSlice
        rw [hc']
        dsimp only
        rcases hf with ⟨hw, -⟩ | ⟨hw, hv, hd⟩
        · refine ⟨s, if_neg ?_, rfl, fun _ => rfl, fun _ _ => rfl⟩
          intro e
          simp only [Bool.and_eq_true, Bool.not_eq_true'] at e
          exact hw e
        · have hv' : SliceValid cur p m.2 s := ⟨hv.1, hv.2.1, by rw [h2, h2]; exact hv.2.2.1, hv.2.2.2⟩
          obtain ⟨s1, e1, e2, e3⟩ := setSliceVar_ok (copy := copy) hv' hw.1 hd
          refine ⟨s1, by rw [if_pos (by simp [hw.1, hw.2])]; exact e1, e2, e3, fun k hk => ?_⟩
          exact (setSliceVar_writes e1).2.2 k (Ne.symm (hk hw))
      obtain ⟨s1, e1, e2, e3, e4⟩ := hstep
      obtain ⟨s2, g1, g2, g3, g4⟩ := ih (fun x hx => hl x (by simp [hx])) s1 (e2.trans h1) (fun k => (e3 k).trans (h2 k))
      refine ⟨s2, by simp only [forAll, e1, andThen]; exact g1, g2, g3, fun k hk => ?_⟩
      rw [g4 k (fun x hx => hk x (by simp [hx])), e4 k (hk m (by simp) cur hc)]
  obtain ⟨s', h1, h2, h3, h4⟩ := hrun masks (fun _ h => h) st rfl (fun _ => rfl)
  refine ⟨s', ?_, h2, h3, h4⟩
  unfold setMasksSlice
  rw [hval]
  exact h1

/-- Assigning to a slice of the masks of a data array: if all masks of the right-hand side fit it succeeds; masks that are read-only
or do not depend on the dimension of the slice stay as they are, and so does every other object. -/
theorem C34_set_slice_masks (copy : Ref → Ref → (Nat → InPlace.Obj U D) → D)
    (differs : Ref → Ref → (Nat → InPlace.Obj U D) → Bool) {i : Nat} {p : Slice} {masks : List (Nat × Ref)} {st : State U D}
    (h : ∀ m ∈ masks, ∃ cur, find (st.masks i) m.1 = some cur ∧ MaskSliceFits differs p st cur m.2) :
    ∃ st', setMasksSlice copy differs i p masks st = .ok st' ∧ st'.arrays = st.arrays ∧
      ∀ k, (∀ m ∈ masks, ∀ cur, find (st.masks i) m.1 = some cur → Writes p cur → cur.obj ≠ k) → st'.heap k = st.heap k := by
  obtain ⟨s, h1, h2, -, h4⟩ := setMasksSlice_ok copy differs h
  exact ⟨s, h1, h2, h4⟩

/-- The slice `p` of `cur` can be overwritten with `m`: unit, dtype and dimensions fit. -/
def SliceFits (p : Slice) (st : State U D) (cur m : Ref) : Prop :=
  SliceValid cur p m st ∧ ∃ s, cur.slice p = .ok s ∧ Sizes.includes s.dims m.dims = true

/-- Either all masks fit, or one is rejected by the check. -/
theorem masks_fit_or_checked {differs : Ref → Ref → (Nat → InPlace.Obj U D) → Bool} {p : Slice} {st : State U D}
    {old masks : List (Nat × Ref)}
    (hm : ∀ m ∈ masks, ∀ cur, find old m.1 = some cur → Writes p cur → SliceFits p st cur m.2) :
    (∀ m ∈ masks, ∃ cur, find old m.1 = some cur ∧ MaskSliceFits differs p st cur m.2) ∨
      ∃ m ∈ masks, ∀ cur, find old m.1 = some cur → ¬ Writes p cur ∧ differs cur m.2 st.heap = true := by
  by_cases h : ∃ m ∈ masks, ∀ cur, find old m.1 = some cur → ¬ Writes p cur ∧ differs cur m.2 st.heap = true
  · exact .inr h
  · refine .inl fun m hmm => ?_
    simp only [not_exists, not_and] at h
    have h1 := h m hmm
    simp only [not_forall] at h1
    obtain ⟨cur, hc, h2⟩ := h1
    refine ⟨cur, hc, ?_⟩
    by_cases hw : Writes p cur
    · exact .inr ⟨hw, hm m hmm cur hc hw⟩
    · refine .inl ⟨hw, ?_⟩
      by_contra hd
      exact h2 ⟨hw, by simpa using hd⟩

/-- C34 for `DataArray::setSlice(Slice, DataArray)`: if it throws, nothing has been modified, provided that the masks to be
overwritten fit and that the data can be written and its dimensions fit. Neither is checked before masks are modified, see
`C34_wrong_for_set_slice`. -/
theorem C34_array_set_slice_partial {copy : Ref → Ref → (Nat → InPlace.Obj U D) → D}
    {differs : Ref → Ref → (Nat → InPlace.Obj U D) → Bool} {superset : DA → DA → Bool} {p : Slice} {i : Nat} {a b : DA}
    {st st' : State U D} {e : Err} (hi : find st.arrays i = some a)
    (hm : ∀ m ∈ b.masks, ∀ cur, find a.masks m.1 = some cur → Writes p cur → SliceFits p st cur m.2)
    (hd : a.data.readonly = false ∧ ∃ s, a.data.slice p = .ok s ∧ Sizes.includes s.dims b.data.dims = true)
    (h : setSliceArray copy differs superset p i b st = .error (e, st')) : st' = st := by
  have hma : st.masks i = a.masks := by simp [State.masks, hi]
  rw [← hma] at hm
  unfold setSliceArray at h
  rw [hi] at h
  rcases andThen_error h with g | ⟨y, hy, h1⟩
  · exact check_error g
  obtain ⟨-, rfl⟩ := check_ok hy
  rcases andThen_error h1 with g | ⟨z, hz, h2⟩
  · exact validateSlice_error g
  obtain ⟨rfl, hv⟩ := validateSlice_ok hz
  rcases masks_fit_or_checked (differs := differs) hm with hm | ⟨m, hmm, hm⟩
  · obtain ⟨s, k1, k2, k3, -⟩ := setMasksSlice_ok copy differs hm
    rw [k1] at h2
    simp only [andThen] at h2
    obtain ⟨s2, k4, -⟩ := setSliceVar_ok (copy := copy) (st := s)
      ⟨hv.1, hv.2.1, by rw [k3, k3]; exact hv.2.2.1, hv.2.2.2⟩ hd.1 hd.2
    rw [k4] at h2
    simp at h2
  · obtain ⟨e', he⟩ := C34_set_slice_masks_checked copy differs hmm hm
    rw [he] at h2
    simp only [andThen, Except.error.injEq, Prod.mk.injEq] at h2
    exact h2.2.symm

/-- The object `k` is written when the slice `p` of all items is assigned to. -/
def Written (st : State U D) (p : Slice) (k : Nat) : Prop :=
  ∃ x ∈ st.arrays, x.2.data.obj = k ∨ ∃ n cur, find x.2.masks n = some cur ∧ Writes p cur ∧ cur.obj = k

/-- C34 for `Dataset::setSlice(Slice, Dataset)` with masks: if it throws, nothing has been modified, provided that data and masks to
be overwritten fit (which is not checked, see `C34_wrong_for_set_slice`), and that masks which cannot be written are compared
with objects that are not written by the same call. This extends `C34_dataset_set_slice_partial`. -/
theorem C34_dataset_set_slice_masks_partial {copy : Ref → Ref → (Nat → InPlace.Obj U D) → D}
    {differs : Ref → Ref → (Nat → InPlace.Obj U D) → Bool} {superset : DA → DA → Bool} {p : Slice} {b : List (Nat × DA)}
    {st st' : State U D} {e : Err}
    (hloc : ∀ a b (g h : Nat → InPlace.Obj U D), g a.obj = h a.obj → g b.obj = h b.obj → differs a b g = differs a b h)
    (hnames : ∀ x ∈ st.arrays, find st.arrays x.1 = some x.2)
    (hfit : ∀ x ∈ st.arrays, ∀ y, find b x.1 = some y → x.2.data.readonly = false ∧
      (∃ s, x.2.data.slice p = .ok s ∧ Sizes.includes s.dims y.data.dims = true) ∧
      ∀ m ∈ y.masks, ∀ cur, find x.2.masks m.1 = some cur →
        (Writes p cur ∧ SliceFits p st cur m.2) ∨ (¬ Writes p cur ∧ ¬ Written st p cur.obj ∧ ¬ Written st p m.2.obj))
    (h : setSliceDataset copy differs superset p b st = .error (e, st')) : st' = st := by
  have hmasks : ∀ x ∈ st.arrays, st.masks x.1 = x.2.masks := fun x hx => by simp [State.masks, hnames x hx]
  -- the dry run changes nothing, and if it passes every item fits
  have hdry := forAll_checks (f := withItem b (validateSliceArray differs superset p))
    (Q := fun x s => ∃ a y, find s.arrays x.1 = some a ∧ find b x.1 = some y ∧ superset a y = true ∧
      SliceValid a.data p y.data s ∧ forAll (validateMask differs x.1 p) y.masks s = .ok s)
    (fun x s e s' h => by
      unfold withItem at h
      split at h
      · simp only [Except.error.injEq, Prod.mk.injEq] at h; exact h.2.symm
      · unfold validateSliceArray at h
        split at h
        · simp only [Except.error.injEq, Prod.mk.injEq] at h; exact h.2.symm
        · rcases andThen_error h with g | ⟨y, hy, h1⟩
          · exact check_error g
          obtain ⟨-, rfl⟩ := check_ok hy
          rcases andThen_error h1 with g | ⟨z, hz, h2⟩
          · exact validateSlice_error g
          obtain ⟨rfl, hv⟩ := validateSlice_ok hz
          refine (forAll_checks (Q := fun _ _ => True) ?_ ?_ _ _).1 _ _ h2
          · intro x s e s' h
            unfold validateMask at h
            split at h
            · simp only [Except.error.injEq, Prod.mk.injEq] at h; exact h.2.symm
            · exact check_error h
          · intro x s s' h
            unfold validateMask at h
            split at h
            · simp at h
            · exact ⟨(check_ok h).2, trivial⟩)
    (fun x s s' h => by
      unfold withItem at h
      split at h
      · simp at h
      · rename_i y hyb
        unfold validateSliceArray at h
        split at h
        · simp at h
        · rename_i a ha
          obtain ⟨y1, hy, h1⟩ := andThen_ok h
          obtain ⟨hsup, rfl⟩ := check_ok hy
          obtain ⟨z, hz, h2⟩ := andThen_ok h1
          obtain ⟨rfl, hv⟩ := validateSlice_ok hz
          have e := ((forAll_checks (Q := fun _ _ => True) ?_ ?_ _ _).2 _ h2).1
          · subst e
            exact ⟨rfl, a, y, ha, hyb, hsup, hv, h2⟩
          · intro x s e s' h
            unfold validateMask at h
            split at h
            · simp only [Except.error.injEq, Prod.mk.injEq] at h; exact h.2.symm
            · exact check_error h
          · intro x s s' h
            unfold validateMask at h
            split at h
            · simp at h
            · exact ⟨(check_ok h).2, trivial⟩) st.arrays st
  rcases andThen_error h with g | ⟨y, hy, h1⟩
  · exact hdry.1 _ _ g
  obtain ⟨rfl, hall⟩ := hdry.2 _ hy
  have hrun : ∀ l : List (Nat × DA), (∀ x ∈ l, x ∈ y.arrays) → ∀ s : State U D, s.arrays = y.arrays →
      (∀ k, (s.heap k).unit = (y.heap k).unit) → (∀ k, ¬ Written y p k → s.heap k = y.heap k) →
      ∃ s', forAll (withItem b (setSliceArray copy differs superset p)) l s = .ok s' := by
    intro l
    induction l with
    | nil => intro _ s _ _ _; exact ⟨s, rfl⟩
    | cons x l ih =>
      intro hl s harr hunit hheap
      have hx := hl x (by simp)
      obtain ⟨a, v, ha, hb, hsup, hval, hvm⟩ := hall x hx
      rw [hnames x hx] at ha
      cases ha
      obtain ⟨hr, hd, hmf⟩ := hfit x hx v hb
      have hsv : ∀ {c m : Ref}, SliceValid c p m y → SliceValid c p m s := fun h =>
        ⟨h.1, h.2.1, by rw [hunit, hunit]; exact h.2.2.1, h.2.2.2⟩
      have hms : s.masks x.1 = x.2.masks := by
        rw [← hmasks x hx]; simp only [State.masks, harr]
      -- the masks fit in the present state
      have hfits : ∀ m ∈ v.masks, ∃ cur, find (s.masks x.1) m.1 = some cur ∧ MaskSliceFits differs p s cur m.2 := by
        intro m hm
        rw [hms]
        have hone := ((forAll_checks (Q := fun (m : Nat × Ref) (s : State U D) =>
            ∃ cur, find (s.masks x.1) m.1 = some cur ∧ (Writes p cur ∨ differs cur m.2 s.heap = false)) ?_ ?_ _ _).2 _ hvm).2 m hm
        · obtain ⟨cur, hc, hw⟩ := hone
          rw [hmasks x hx] at hc
          refine ⟨cur, hc, ?_⟩
          rcases hmf m hm cur hc with ⟨h1, h2, h3⟩ | ⟨h1, h2, h3⟩
          · exact .inr ⟨h1, hsv h2, h3⟩
          · refine .inl ⟨h1, ?_⟩
            rw [hloc cur m.2 s.heap y.heap (hheap _ h2) (hheap _ h3)]
            exact hw.resolve_left h1
        · intro x s e s' h
          unfold validateMask at h
          split at h
          · simp only [Except.error.injEq, Prod.mk.injEq] at h; exact h.2.symm
          · exact check_error h
        · intro m s s' h
          unfold validateMask at h
          split at h
          · simp at h
          · rename_i cur hc
            obtain ⟨h1, rfl⟩ := check_ok h
            refine ⟨rfl, cur, hc, ?_⟩
            unfold Writes
            cases hr : cur.readonly <;> cases hd : Sizes.contains cur.dims p.dim <;> simp_all
      obtain ⟨s1, k1, k2, k3, k4⟩ := setMasksSlice_ok copy differs hfits
      obtain ⟨s2, m1, m2, m3⟩ := setSliceVar_ok (copy := copy) (st := s1)
        (⟨hval.1, hval.2.1, by rw [k3, k3, hunit, hunit]; exact hval.2.2.1, hval.2.2.2⟩ : SliceValid x.2.data p v.data s1) hr hd
      have hs1 : ∀ k, ¬ Written y p k → s2.heap k = y.heap k := by
        intro k hk
        rw [(setSliceVar_writes m1).2.2 k (fun e => hk ⟨x, hx, .inl e.symm⟩), k4 k, hheap k hk]
        intro m hm cur hc hw e
        rw [hms] at hc
        exact hk ⟨x, hx, .inr ⟨m.1, cur, hc, hw, e⟩⟩
      obtain ⟨s3, h3⟩ := ih (fun z hz => hl z (by simp [hz])) s2 (m2.trans (k2.trans harr))
        (fun k => (m3 k).trans ((k3 k).trans (hunit k))) hs1
      refine ⟨s3, ?_⟩
      have : withItem b (setSliceArray copy differs superset p) x s = .ok s2 := by
        have hn := hnames x hx
        rw [← harr] at hn
        simp [withItem, hb, setSliceArray, hn, hsup, validateSlice_of (hsv hval), andThen, k1, m1]
      simp only [forAll, this, andThen]
      exact h3
  obtain ⟨s, hs⟩ := hrun y.arrays (fun _ h => h) y rfl (fun _ => rfl) (fun _ _ => rfl)
  rw [hs] at h1
  simp at h1

/-! ### Examples -/

private def coordState : State Nat Int :=
  { heap := heapOf [(1, 10), (2, 20), (0, 0), (0, 0), (1, 5), (2, 6), (0, 1), (0, 1)]
    next := 8
    arrays := [(0, ⟨refTo 0 [(7, 3)], [(7, 4), (8, 5)], [(0, maskTo 2 [(7, 3)])], false⟩),
               (1, ⟨refTo 1 [(7, 3)], [(7, 4)], [(0, maskTo 3 []), (1, { maskTo 6 [(7, 3)] with readonly := true })], false⟩)] }

example := C34_coords_checked orOps addOp (i := 1) (b := ⟨refTo 5 [(7, 3)], [(8, 5)], [], false⟩) (st := coordState)
  (c := (8, 5)) (a := ⟨refTo 1 [(7, 3)], [(7, 4)], [(0, maskTo 3 []), (1, { maskTo 6 [(7, 3)] with readonly := true })], false⟩)
  (by decide) (by decide) (by decide)

example := C34_coords_accepted orOps addOp (i := 0) (b := ⟨refTo 4 [(7, 3)], [(8, 5)], [], false⟩) (st := coordState)
  (a := ⟨refTo 0 [(7, 3)], [(7, 4), (8, 5)], [(0, maskTo 2 [(7, 3)])], false⟩) (by decide) (by decide) (by decide)

example := C34_dataset_coords_checked orOps addOp (st := coordState)
  (b := [(0, ⟨refTo 4 [(7, 3)], [(8, 5)], [], false⟩), (1, ⟨refTo 5 [(7, 3)], [(8, 5)], [], false⟩)])
  (p := (1, ⟨refTo 5 [(7, 3)], [(8, 5)], [], false⟩)) (by simp) (fun a h => by
    have : a = ⟨refTo 1 [(7, 3)], [(7, 4)], [(0, maskTo 3 []), (1, { maskTo 6 [(7, 3)] with readonly := true })], false⟩ := by
      simpa [find, coordState] using h.symm
    subst this
    exact ⟨(8, 5), by decide, by decide⟩)

private theorem coordState_masks : MasksExist coordState 0 := by
  intro k cur h
  have : (k, cur) ∈ coordState.masks 0 := find_mem h
  simp [coordState, State.masks, find] at this
  obtain ⟨rfl, rfl⟩ := this
  exact ⟨by decide, by simp [CheckedUnit, maskTo]⟩

/-- A new mask and one that exists. -/
example := C37_new_mask_is_a_copy (mo := orOps) (i := 0) (ro := false) (st := coordState)
  (ms := [(5, maskTo 7 []), (0, maskTo 6 [(7, 3)])]) (by decide) (by decide) coordState_masks rfl

example : ((unionOrInPlace orOps 0 false [(5, maskTo 7 []), (0, maskTo 6 [(7, 3)])] coordState).toOption.map fun s =>
    (find (s.masks 0) 5, (s.heap 8).data, (s.heap 2).data)) = some (some (maskTo 8 []), 1, 1) := by decide

/-- A slice of the mask of the first item is overwritten; the masks of the second item cannot be written and do not differ. -/
example := C34_set_slice_masks (copy := copyData) (differs := fun _ _ _ => false) (i := 1) (p := ⟨7, 0, 2, 1⟩) (st := coordState)
  (masks := [(0, maskTo 7 []), (1, maskTo 7 [])]) (by
    intro m hm
    simp only [List.mem_cons, List.not_mem_nil, or_false] at hm
    rcases hm with rfl | rfl
    · exact ⟨maskTo 3 [], by decide, .inl ⟨fun h => absurd h.2 (by decide), rfl⟩⟩
    · exact ⟨{ maskTo 6 [(7, 3)] with readonly := true }, by decide, .inl ⟨fun h => absurd h.1 (by decide), rfl⟩⟩)

example := C34_set_slice_masks_checked (copy := copyData) (differs := fun a b h => decide ((h a.obj).data ≠ (h b.obj).data)) (i := 1)
  (p := ⟨7, 0, 2, 1⟩) (st := coordState) (masks := [(1, maskTo 7 []), (0, maskTo 7 [])]) (m := (0, maskTo 7 [])) (by simp) (by
    intro cur h
    have : cur = maskTo 3 [] := by
      have : some (maskTo 3 []) = some cur := by rw [← h]; decide
      exact (Option.some.inj this).symm
    subst this
    exact ⟨fun h => absurd h.2 (by decide), by decide⟩)

/-- The mask and the data of the first item are overwritten; then the operation fails because of the units. -/
example := C34_array_set_slice_partial (copy := copyData) (differs := fun _ _ _ => true) (superset := fun _ _ => true) (i := 0)
  (p := ⟨7, 0, 2, 1⟩) (st := coordState) (a := ⟨refTo 0 [(7, 3)], [(7, 4), (8, 5)], [(0, maskTo 2 [(7, 3)])], false⟩)
  (b := ⟨refTo 5 [(7, 2)], [], [(0, maskTo 6 [(7, 2)])], false⟩) (by decide) (by
    intro m hm cur h _
    simp only [List.mem_cons, List.not_mem_nil, or_false] at hm
    subst hm
    have : cur = maskTo 2 [(7, 3)] := by
      have : some (maskTo 2 [(7, 3)]) = some cur := by rw [← h]; decide
      exact (Option.some.inj this).symm
    subst this
    exact ⟨⟨by decide, by decide, by decide, by decide⟩, ⟨_, rfl, by decide⟩⟩) ⟨by decide, _, rfl, by decide⟩ rfl

private theorem written_coordState (k : Nat) : Written coordState ⟨7, 0, 2, 1⟩ k → k = 0 ∨ k = 1 ∨ k = 2 := by
  rintro ⟨x, hx, rfl | ⟨n, cur, hc, hw, rfl⟩⟩
  · simp only [coordState, List.mem_cons, List.not_mem_nil, or_false] at hx
    rcases hx with rfl | rfl <;> decide
  · have hm := find_mem hc
    simp only [coordState, List.mem_cons, List.not_mem_nil, or_false] at hx
    rcases hx with rfl | rfl
    · simp only [List.mem_cons, List.not_mem_nil, or_false, Prod.mk.injEq] at hm
      obtain ⟨-, rfl⟩ := hm
      decide
    · simp only [List.mem_cons, List.not_mem_nil, or_false, Prod.mk.injEq] at hm
      rcases hm with ⟨-, rfl⟩ | ⟨-, rfl⟩
      · exact absurd hw.2 (by decide)
      · exact absurd hw.1 (by decide)

/-- Masks of both items are given, the mask of the first can be overwritten, the one of the second is equal; the operation fails because of the
unit of the second item. -/
example := C34_dataset_set_slice_masks_partial (copy := copyData) (differs := fun a b h => decide ((h a.obj).data ≠ (h b.obj).data))
  (superset := fun _ _ => true) (p := ⟨7, 0, 2, 1⟩) (st := coordState)
  (b := [(0, ⟨refTo 4 [(7, 2)], [], [(0, maskTo 6 [(7, 2)])], false⟩), (1, ⟨refTo 4 [(7, 2)], [], [(1, maskTo 7 [])], false⟩)])
  (by intro a b g h h1 h2; simp only [h1, h2]) (by decide) (by
    intro x hx y hy
    simp only [coordState, List.mem_cons, List.not_mem_nil, or_false] at hx
    rcases hx with rfl | rfl
    · have : y = ⟨refTo 4 [(7, 2)], [], [(0, maskTo 6 [(7, 2)])], false⟩ := by simpa [find] using hy.symm
      subst this
      refine ⟨by decide, ⟨_, rfl, by decide⟩, ?_⟩
      intro m hm cur h
      simp only [List.mem_cons, List.not_mem_nil, or_false] at hm
      subst hm
      have : cur = maskTo 2 [(7, 3)] := by simpa [find] using h.symm
      subst this
      exact .inl ⟨⟨by decide, by decide⟩, ⟨by decide, by decide, by decide, by decide⟩, _, rfl, by decide⟩
    · have : y = ⟨refTo 4 [(7, 2)], [], [(1, maskTo 7 [])], false⟩ := by simpa [find] using hy.symm
      subst this
      refine ⟨by decide, ⟨_, rfl, by decide⟩, ?_⟩
      intro m hm cur h
      simp only [List.mem_cons, List.not_mem_nil, or_false] at hm
      subst hm
      have : cur = { maskTo 6 [(7, 3)] with readonly := true } := by simpa [find] using h.symm
      subst this
      refine .inr ⟨fun h => absurd h.1 (by decide), ?_, ?_⟩ <;>
        · intro h
          have := written_coordState _ h
          simp [maskTo] at this) rfl

end Scipp.Props
