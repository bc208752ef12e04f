import Verif.Model.Sizes

/-!
# Merging adjacent bins with equal values

`merge_equal_adjacent` (`src/scipp/core/domains.py` 11-36) of a 1-D histogram.
-/

namespace Scipp.Domains

variable {V X : Type}

/-- The condition (`domains.py` 31-33): true for a bin whose right neighbor has a different value, and for the last bin. -/
def condition (ne : V → V → Bool) : List V → List Bool
  | [] => []
  | [_] => [true]
  | a :: b :: vs => ne b a :: condition ne (b :: vs)

/-- Selection by a condition, `tmp[condition]` (`domains.py` 34; C42). -/
def select {α : Type} : List Bool → List α → List α
  | true :: cs, x :: xs => x :: select cs xs
  | false :: cs, _ :: xs => select cs xs
  | _, _ => []

/-- `merge_equal_adjacent` (`domains.py` 24-36). `ne` is the comparison of elements (`!=`). The coordinate without its first edge is selected together
with the values (30, 34), the first edge is then put in front (35). Errors: a coordinate that is not bin edges (the constructor of `tmp`), no bins
(32: there is no last one). Other coordinates, masks, and attributes of the input are not kept (30). -/
def mergeEqualAdjacent (ne : V → V → Bool) (values : List V) (edges : List X) : Except Err (List V × List X) :=
  match edges with
  | [] => .error .dimension
  | e :: es =>
    if es.length ≠ values.length then .error .dimension
    else if values = [] then .error .slice
    else .ok (select (condition ne values) values, e :: select (condition ne values) es)

end Scipp.Domains
