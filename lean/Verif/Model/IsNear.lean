import Verif.Model.Sizes
/-
Comparison of data arrays with tolerance (`src/scipp/utils/comparison.py`).

`close` is `all(isclose(a, b, …)).value` with the tolerances given, which may fail, e.g., for different units; it is any function.
-/
namespace Scipp.IsNear
open Scipp

/-- A variable: shape, whether the dtype is `float64` or `float32`, other contents (`src/scipp/utils/comparison.py` 80-86). -/
structure Var (V : Type) where
  shape : List Nat
  float : Bool
  val : V
deriving DecidableEq

/-- A data array: data, coords, attributes (which are deprecated) and masks (`src/scipp/utils/comparison.py` 65-79). -/
structure Arr (V : Type) where
  data : Var V
  coords : List (Nat × Var V)
  attrs : List (Nat × Var V)
  masks : List (Nat × Var V)

/-- `deprecated_meta` or `coords` (`src/scipp/utils/comparison.py` 77-79). -/
def Arr.info {V : Type} (a : Arr V) (includeAttrs : Bool) : List (Nat × Var V) := if includeAttrs then a.coords ++ a.attrs else a.coords

/-- The loop over coords (`src/scipp/utils/comparison.py` 77-87); true if it does not return. -/
def loop {V : Type} (close : Var V → Var V → Except Err Bool) (other : List (Nat × Var V)) : List (Nat × Var V) → Except Err Bool
  | [] => .ok true
  | (key, a) :: rest =>
    match (other.find? (fun e => e.1 == key)).map (·.2) with
    | none => .error .notFound
    | some b =>
      if a.shape ≠ b.shape then .error .dataArray
      else if a.float then
        match close a b with
        | .error e => .error e
        | .ok false => .ok false
        | .ok true => loop close other rest
      else loop close other rest

/-- `isnear` (`src/scipp/utils/comparison.py` 65-88). -/
def isnear {V : Type} (close : Var V → Var V → Except Err Bool) (x y : Arr V) (includeAttrs includeData : Bool) : Except Err Bool :=
  match (if includeData then close x.data y.data else .ok true) with
  | .error e => .error e
  | .ok sameData =>
    if (x.info includeAttrs).length ≠ (y.info includeAttrs).length then .ok false
    else
      match loop close (y.info includeAttrs) (x.info includeAttrs) with
      | .error e => .error e
      | .ok false => .ok false
      | .ok true => .ok sameData

end Scipp.IsNear
