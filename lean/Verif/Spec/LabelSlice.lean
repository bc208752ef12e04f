import Verif.Model.LabelSlice
/-!
Vocabulary for statements about slicing by label.
-/
namespace Scipp.Label
open Scipp
variable {α : Type} [LinearOrder α]

/-- `x` comes before `y` or is equal to it, in ascending or descending order. -/
def Le (asc : Bool) (x y : α) : Prop := if asc then x ≤ y else y ≤ x

/-- `x` comes strictly before `y`, in ascending or descending order. -/
def Lt (asc : Bool) (x y : α) : Prop := if asc then x < y else y < x

instance (asc : Bool) (x y : α) : Decidable (Le asc x y) := by unfold Le; infer_instance

instance (asc : Bool) (x y : α) : Decidable (Lt asc x y) := by unfold Lt; infer_instance

/-- A coord with values `xs` for data of the given sizes: one value per point. -/
structure IsPoints (sizes : Sizes) (coord : Coord α) (dim : Dim) (xs : List α) : Prop where
  dims : coord.dims = [(dim, (xs.length : Int))]
  vals : coord.vals = xs.map some
  size : (dim, (xs.length : Int)) ∈ sizes

/-- A coord with bin edges `es` for data of the given sizes. -/
structure IsEdges (sizes : Sizes) (coord : Coord α) (dim : Dim) (es : List α) : Prop where
  dims : coord.dims = [(dim, (es.length : Int))]
  vals : coord.vals = es.map some
  size : (dim, (es.length : Int) - 1) ∈ sizes

/-- The values are sorted, and not all of them are the same. A single value counts as ascending. -/
def Sorted (asc : Bool) (xs : List α) : Prop :=
  xs.Pairwise (Le asc) ∧ (xs.length = 1 ∧ asc = true ∨ ∃ x ∈ xs, ∃ y ∈ xs, x ≠ y)

/-- The slice contains index `j`. -/
def Selected (s : Slice) (j : Nat) : Prop := s.start ≤ j ∧ (j : Int) < s.stop

/-- The bounds of an interval have the unit of the coord and an ordered dtype and are scalars. -/
def Bound (coord : Coord α) (v : Option (Value α)) (x : Option α) : Prop :=
  match v, x with
  | none, none => True
  | some v, some x => v.dims = [] ∧ v.val = some x ∧ v.unit = coord.unit ∧ v.orderable = true
  | _, _ => False

end Scipp.Label
