import Verif.Model.NumpyReduce
import Verif.Spec.Masks
/-!
Vocabulary for statements about reductions over several dims.
-/
namespace Scipp.NpRed
variable {V W U : Type}

/-- All coordinates that differ from `c` in the given dims only, within their extents. -/
def over : Dims → (Dim → Int) → List (Dim → Int)
  | [], c => [c]
  | (d, n) :: s, c => (intRange 0 n).flatMap (fun i => over s (upd c d i))

/-- The dims that are reduced, with extents, in the order of the data. -/
def redDims (dims : Dims) (reduced : List Dim) : Dims := dims.filter (fun p => decide (p.1 ∈ reduced))

/-- The dims that remain. -/
def keptDims (dims : Dims) (reduced : List Dim) : Dims := dims.filter (fun p => decide (p.1 ∉ reduced))

/-- The dims to be reduced: those asked for, or all. -/
def asked (dims : Dims) : Option (List Dim) → List Dim
  | none => Sizes.labels dims
  | some ds => ds

/-- Something with the given dims depends on one of the reduced dims. -/
def Depends (dims : Dims) (reduced : List Dim) : Prop := ∃ d ∈ reduced, d ∈ Sizes.labels dims

instance (dims : Dims) (reduced : List Dim) : Decidable (Depends dims reduced) := by unfold Depends; infer_instance

/-- The element at `c` is masked by a mask depending on one of the reduced dims. -/
def maskedAt (masks : List (Dim × MaskVar)) (reduced : List Dim) (c : Dim → Int) : Bool :=
  masks.any (fun p => decide (Depends p.2.arr.dims reduced) && p.2.arr.val c)

/-- The elements contributing to the output element at `c` that are not masked. -/
def contributing (a : Arr V) (masks : List (Dim × MaskVar)) (reduced : List Dim) (c : Dim → Int) : List V :=
  ((over (redDims a.dims reduced) c).filter (fun e => !maskedAt masks reduced e)).map a.val

/-- The dims can be reduced: there are such dims, and none is named twice. -/
def ValidDims (dims : Dims) (reduced : List Dim) : Prop := reduced.Nodup ∧ ∀ d ∈ reduced, d ∈ Sizes.labels dims

/-- A data array that can exist: data, coords, attrs and masks are well-formed and fit, masks are boolean and not bin edges. -/
structure PArr.Ok (x : PArr V U) : Prop where
  masked : (⟨x.data.arr, x.masks⟩ : MaskedArr V).Ok
  names : (x.coords.map Prod.fst).Nodup ∧ (x.attrs.map Prod.fst).Nodup ∧ (x.masks.map Prod.fst).Nodup
  items : ∀ p, p ∈ x.coords ∨ p ∈ x.attrs → p.2.view.WF ∧ p.2.binned = false ∧ Fits x.data.arr.dims p.2.dims

end Scipp.NpRed
