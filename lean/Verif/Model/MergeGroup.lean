import Verif.Model.Sizes
/-
Merging data groups: `_merge_data_group` (`src/scipp/core/operations.py`). Items are anything; `same` is `_generic_identical`, which is any function.
-/
namespace Scipp.MergeGroup
open Scipp

/-- `res[k] = v` of a Python dict: the place is kept (`src/scipp/core/operations.py` 368). -/
def setItem {V : Type} (k : Nat) (v : V) : List (Nat × V) → List (Nat × V)
  | [] => [(k, v)]
  | (j, w) :: l => if j = k then (j, v) :: l else (j, w) :: setItem k v l

/-- The loop (`src/scipp/core/operations.py` 365-369). -/
def mergeInto {V : Type} (same : V → V → Bool) : List (Nat × V) → List (Nat × V) → Except Err (List (Nat × V))
  | res, [] => .ok res
  | res, (k, v) :: l =>
    match res.lookup k with
    | some w => if same w v then mergeInto same (setItem k v res) l else .error .dataset
    | none => mergeInto same (setItem k v res) l

/-- `_merge_data_group` (`src/scipp/core/operations.py` 363-369). -/
def merge {V : Type} (same : V → V → Bool) (lhs rhs : List (Nat × V)) : Except Err (List (Nat × V)) := mergeInto same lhs rhs

/-- An item for the cases below: a scipp object or number, NaN being apart; NaN is not equal to itself (`src/scipp/core/operations.py` 351-360; documentation of `numpy.array_equal`, `equal_nan=False`). -/
def identicalValue (a b : Option Int) : Bool :=
  match a, b with
  | some x, some y => decide (x = y)
  | _, _ => false

end Scipp.MergeGroup
