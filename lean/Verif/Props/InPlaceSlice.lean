import Verif.Lemmas.SizedDict2
import Verif.Model.InPlace
/-!
# C34: slices as targets of in-place operations

In the model of in-place operations a variable is a reference to an object. The slice `setSlice` writes to is the slice of C04.
-/
namespace Scipp.Props
open Scipp Sizes Scipp.InPlace

/-- **C34** (slices): slicing a reference fails exactly if slicing the variable fails, and gives the same dims. The slice refers to the
same object, is read-only if the variable is, and is a view of a part. -/
theorem C34_slice_ref (a : Ref) (v : View) (p : Slice) (hw : v.WF) (hp : p.Constructed) (hd : a.dims = v.dims) :
    ((∃ r, a.slice p = .ok r) ↔ ∃ v', v.slice p = .ok v') ∧
    ∀ r v', a.slice p = .ok r → v.slice p = .ok v' → r.dims = v'.dims ∧ r.obj = a.obj ∧ r.readonly = a.readonly ∧ r.dtype = a.dtype ∧
      r.hasVar = a.hasVar ∧ r.slice_ = true ∧ r.bufSlice = true := by
  have hne := hp.ne_none
  obtain ⟨h0, hst, hse⟩ := hp.spec
  have key : ∀ d, Sizes.slice v.dims p = .ok d ↔ ∃ r, a.slice p = .ok r ∧ r.dims = d := by
    intro d
    unfold Ref.slice Sizes.slice
    rw [hd]
    cases hv : validSlice v.dims p with
    | error e => simp [bind, Except.bind]
    | ok u =>
      simp only [bind, Except.bind, if_neg hne]
      by_cases hs : p.stop = -1
      · have hr : p.isRange = false := by simp [Slice.isRange, hs]
        rw [if_pos hs, hr]
        simp only [Bool.false_eq_true, if_false]
        cases Sizes.erase v.dims p.dim <;> simp
      · have hr : p.isRange = true := by simp [Slice.isRange, hs]
        rw [if_neg hs, hr]
        simp only [if_true, Sizes.slice, hv, bind, Except.bind, if_neg hne, hr]
        cases Sizes.resize v.dims p.dim (sliceExtent p.start p.stop p.stride) <;> simp
  refine ⟨⟨fun ⟨r, hr⟩ => ?_, fun ⟨v', h⟩ => ?_⟩, fun r v' hr h => ?_⟩
  · have h1 := (key r.dims).2 ⟨r, hr, rfl⟩
    obtain ⟨⟨m, hm, hle⟩, -⟩ := sizes_slice_facts hw.1.1 hp h1
    exact (C04_slice_accepts_iff v p hw hp).1.2 ⟨m, hm, hle⟩
  · obtain ⟨r, hr, -⟩ := (key _).1 (View.slice_dims h)
    exact ⟨r, hr⟩
  · obtain ⟨r', hr', hd'⟩ := (key _).1 (View.slice_dims h)
    rw [hr] at hr'
    cases hr'
    refine ⟨hd', ?_⟩
    unfold Ref.slice at hr
    split at hr
    · cases hr
    · split at hr <;> cases hr
      exact ⟨rfl, rfl, rfl, rfl, rfl, rfl⟩

example := C34_slice_ref ⟨7, [(1, 4), (2, 3)], 0, true, false, false, false, 0⟩ ⟨[(1, 4), (2, 3)], [3, 1], 0, false⟩ ⟨1, 1, 4, 2⟩
  (by simp [View.WF, Sizes.WF, labels]) (.inl (by decide)) rfl
example : ((Ref.mk 7 [(1, 4), (2, 3)] 0 true false false false 0).slice ⟨1, 1, 4, 2⟩).map (·.dims) = .ok [(1, 2), (2, 3)] := by decide
example := C34_slice_ref ⟨7, [(1, 4), (2, 3)], 0, true, false, false, false, 0⟩ ⟨[(1, 4), (2, 3)], [3, 1], 0, false⟩ ⟨1, 3, -1, 1⟩
  (by simp [View.WF, Sizes.WF, labels]) (.inr (by decide)) rfl

end Scipp.Props
