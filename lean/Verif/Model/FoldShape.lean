import Verif.Model.Sizes
import Mathlib.Algebra.BigOperators.Group.List.Basic
/-
The shape for `fold` with a size left open, given as -1 (`src/scipp/core/shape.py`), and the check in `lib/core/dimensions.cpp`. Labels of dims are not modelled, they are in `View`.
-/
namespace Scipp.FoldShape
open Scipp

/-- The size which was left open: the quotient is rounded down, and zero if the divisor is zero, as NumPy's integers (`src/scipp/core/shape.py` 258-266). -/
def openSize (size : Nat) (volume : Int) : Except Err Int :=
  if volume = 0 then .ok 0
  else if Int.fmod size volume ≠ 0 then .error .invalidArgument
  else .ok (Int.fdiv size volume)

/-- The new shape (`src/scipp/core/shape.py` 243-267). -/
def newShape (size : Nat) (shape : List Int) : Except Err (List Int) :=
  if shape.count (-1) > 1 then .error .dimension
  else if shape.count (-1) = 1 then
    match openSize size (shape.set (shape.idxOf (-1)) 1).prod with
    | .error e => .error e
    | .ok n => .ok (shape.set (shape.idxOf (-1)) n)
  else .ok shape

/-- `fold` (`src/scipp/core/shape.py` 243-269; `lib/core/dimensions.cpp` 147-164): sizes must not be negative, and volumes equal; `others` is the volume of the other dims. -/
def fold (others size : Nat) (shape : List Int) : Except Err (List Int) :=
  match newShape size shape with
  | .error e => .error e
  | .ok r =>
    if r.any (fun n => n < 0) then .error .dimension
    else if (others : Int) * size ≠ others * r.prod then .error .dimension
    else .ok r

end Scipp.FoldShape
