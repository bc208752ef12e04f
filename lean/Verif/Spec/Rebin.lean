import Mathlib.Algebra.Field.Defs
import Mathlib.Algebra.Order.Ring.Abs
import Mathlib.Algebra.BigOperators.Intervals
/-!
What rebinning is expected to compute.
-/
namespace Scipp.Props
variable {K : Type} [Field K] [LinearOrder K]

/-- Length of the intersection of the intervals from `a` to `b` and from `c` to `d`. -/
def overlapLength (a b c d : K) : K := max 0 (min b d - max a c)

/-- The counts new bin `j` should have: from every old bin the fraction of its counts given by the overlap. -/
def rebinned (xnew xold data : List K) (j : Nat) : K :=
  ∑ i ∈ Finset.range (xold.length - 1), data.getD i 0 *
    (overlapLength (xold.getD i 0) (xold.getD (i + 1) 0) (xnew.getD j 0) (xnew.getD (j + 1) 0) / (xold.getD (i + 1) 0 - xold.getD i 0))

/-- Strictly increasing edges. -/
def Increasing (xs : List K) : Prop := ∀ i j : Nat, i < j → j < xs.length → xs.getD i 0 < xs.getD j 0

/-- `<` as used by the code. -/
def lt' {K : Type} [LinearOrder K] : K → K → Bool := fun a b => decide (a < b)

/-- `>` as used by the code. -/
def gt' {K : Type} [LinearOrder K] : K → K → Bool := fun a b => decide (b < a)

/-- Strictly decreasing edges. -/
def Decreasing (xs : List K) : Prop := ∀ i j : Nat, i < j → j < xs.length → xs.getD j 0 < xs.getD i 0

end Scipp.Props
