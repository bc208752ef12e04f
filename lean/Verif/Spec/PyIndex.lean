import Verif.Model.Transform
/-!
What indexing means for Python sequences (Python language reference, "Common sequence operations", notes 3-5).
-/
namespace Scipp.Py

/-- A bound of a Python slice of a sequence of length `n`: negative numbers count from the end, numbers that are too large or too small are
replaced by the end or the beginning. -/
def bound (n x : Int) : Int := if x < 0 then max 0 (n + x) else min x n

/-- The positions `start:stop:step` selects of a sequence of length `n`, for positive `step`: those from the lower bound up to the upper
bound whose distance from the lower bound is a multiple of `step`. -/
def positions (n : Int) (start stop : Option Int) (step : Int) : List Int :=
  (intRange 0 n).filter (fun j =>
    decide (((start.map (bound n)).getD 0) ≤ j ∧ j < ((stop.map (bound n)).getD n) ∧ step ∣ j - ((start.map (bound n)).getD 0)))

/-- The position an integer index refers to: negative ones count from the end. -/
def position? (n i : Int) : Option Int :=
  if 0 ≤ i ∧ i < n then some i else if i < 0 ∧ -n ≤ i then some (n + i) else none

end Scipp.Py
