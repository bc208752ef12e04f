import Verif.Model.BinIndex
/-!
The meaning of bin edges.
-/
namespace Scipp.Spec
variable {α : Type} [LinearOrder α]

/-- `x` lies in the `i`-th of the half-open bins given by consecutive `edges`; NaN lies in no bin. -/
def InBin (edges : List α) (i : Nat) (x : Option α) : Prop :=
  ∃ v lo hi, x = some v ∧ edges[i]? = some lo ∧ edges[i + 1]? = some hi ∧ lo ≤ v ∧ v < hi

/-- Edges in non-decreasing order. -/
def Ascending (edges : List α) : Prop := edges.Pairwise (· ≤ ·)

/-- `b` is the index of the bin containing `x`, `-1` if there is none. -/
def IsBinOf (edges : List α) (x : Option α) (b : Int) : Prop :=
  (∃ i : Nat, b = i ∧ InBin edges i x) ∨ (b = -1 ∧ ∀ i, ¬ InBin edges i x)

end Scipp.Spec
