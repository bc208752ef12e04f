import Verif.Model.SubbinSizes
import Mathlib.Order.Defs.LinearOrder
/-
Model of how a single value is assigned to a bin: `core::get_bin`
(`lib/core/include/scipp/core/histogram.h`), the index updates of `bin`/`group`
(`lib/core/include/scipp/core/element/bin.h`), and the search for the range of relevant output bins
(`lib/core/include/scipp/core/element/bin_detail.h`).

Values and edges are elements of an arbitrary linear order `α`. An event's coordinate may in addition be NaN: this is
`none`. Edges are not NaN (simplification: edges containing NaN are not modelled).
-/
namespace Scipp
variable {α : Type} [LinearOrder α]

/-- `x < e`, false for a NaN. -/
def nanLt : Option α → α → Bool
  | none, _ => false
  | some x, e => x < e

/-- `x >= e`, false for a NaN. -/
def nanGe : Option α → α → Bool
  | none, _ => false
  | some x, e => e ≤ x

/-- `get_bin` (`histogram.h` 30-50) for `edges` with result `guess` of the conversion `(x - offset) * scale` to an
integer (line 41; the conversion of a value outside the range of the integer type, undefined behaviour, is excluded by the
early return and not modelled). Access outside `edges` is `Err.ub`. -/
def getBin (x : Option α) (edges : List α) (guess : α → Int) : Except Err Int :=
  match edges.head?, edges.getLast? with
  | some front, some back =>
    if nanLt x front || nanGe x back then .ok (-1)
    else match x with
      | none => .ok (-1)
      | some v =>
        let nbin : Int := edges.length - 1
        let bin := max 0 (min (guess v) (nbin - 1))
        match vecGet edges bin, vecGet edges (bin + 1) with
        | some lo, some hi =>
          if v < lo then .ok (bin - 1)
          else if hi ≤ v then .ok (bin + 1)
          else .ok bin
        | _, _ => .error .ub
  | _, _ => .error .ub

/-- `std::upper_bound(edges.begin(), edges.end(), x) - edges.begin()`: position of the first edge greater than `x`. The
standard library's binary search is specified for ranges partitioned by `!(x < e)`, in particular for sorted `edges`, for which
this is the value returned. NaN is not less than anything, thus the end. -/
def upperBound (edges : List α) (x : Option α) : Nat := (edges.takeWhile fun e => !nanLt x e).length

/-- `linear_edge_params` (`histogram.h` 15-21): `std::get<1>(params)`, the number of bins. -/
def nbinOf (edges : List α) : Int := (edges.length : Int) - 1

/-- `update_indices_by_binning_linspace` (`bin.h` 56-69). -/
def updateBinLinspace (edges : List α) (guess : α → Int) (x : Option α) (index : Int) : Except Err Int :=
  if index = -1 then .ok index
  else do
    let bin ← getBin x edges guess
    if bin < 0 then return -1
    else return index * nbinOf edges + bin

/-- `update_indices_by_binning_sorted_edges` (`bin.h` 71-83). -/
def updateBinSorted (edges : List α) (x : Option α) (index : Int) : Int :=
  if index = -1 then index
  else
    let it := upperBound edges x
    if it = 0 ∨ it = edges.length then -1
    else index * ((edges.length : Int) - 1) + ((it : Int) - 1)

/-- `std::unordered_map` as a list of pairs with distinct keys; the order is irrelevant. -/
abbrev HashMap (γ : Type) := List (γ × Int)

/-- `index[item] = value` for a `std::unordered_map` (`bin.h` 99). -/
def HashMap.assign {γ : Type} [DecidableEq γ] : HashMap γ → γ → Int → HashMap γ
  | [], k, v => [(k, v)]
  | p :: m, k, v => if p.1 = k then (k, v) :: m else p :: HashMap.assign m k v

/-- `groups.find(x)` for a `std::unordered_map` (`bin.h` 139). -/
def HashMap.find {γ : Type} [DecidableEq γ] : HashMap γ → γ → Option Int
  | [], _ => none
  | p :: m, k => if p.1 = k then some p.2 else HashMap.find m k

/-- The loop of `groups_to_map` (`bin.h` 97-99). -/
def groupsLoop {γ : Type} [DecidableEq γ] : List γ → Int → HashMap γ → HashMap γ
  | [], _, m => m
  | item :: rest, current, m => groupsLoop rest (current + 1) (m.assign item current)

/-- `groups_to_map` (`bin.h` 85-103). Labels that are not equal to themselves (NaN) are not modelled. -/
def groupsToMap {γ : Type} [DecidableEq γ] (groups : List γ) : Except Err (HashMap γ) :=
  let m := groupsLoop groups 0 []
  if groups.length ≠ m.length then .error .runtime else .ok m

/-- `update_indices_by_grouping` (`bin.h` 136-142). -/
def updateGroup {γ : Type} [DecidableEq γ] (groups : HashMap γ) (x : γ) (index : Int) : Int :=
  if index = -1 then index
  else
    let index := index * groups.length
    match groups.find x with
    | none => -1
    | some g => index + g

/-- `update_indices_by_grouping_contiguous` (`bin.h` 167-173). -/
def updateGroupContiguous (ngroup offset x index : Int) : Int :=
  if index = -1 then index
  else
    let index := index * ngroup
    let group := x - offset
    if group < 0 ∨ group ≥ ngroup then -1 else index + group

/-- `update_indices_from_existing` (`bin.h` 179-184). -/
def updateExisting (binIndex nbin index : Int) : Int :=
  if index = -1 then index else index * nbin + binIndex

/-- `begin_edge` (`lib/core/include/scipp/core/element/bin_detail.h` 30-36) for one coordinate, continuing from `bin`. The
`while` loop is bounded by the number of edges, `fuel`. -/
def beginEdgeStep (edges : List α) (coord : α) : Nat → Int → Int
  | 0, bin => bin
  | fuel + 1, bin =>
    if bin + 2 < edges.length then
      match vecGet edges (bin + 1) with
      | some e => if e ≤ coord then beginEdgeStep edges coord fuel (bin + 1) else bin
      | none => bin
    else bin

/-- `end_edge` (`bin_detail.h` 38-44) for one coordinate, continuing from `bin`; the result stored is `bin + 2`. -/
def endEdgeStep (edges : List α) (coord : α) : Nat → Int → Int
  | 0, bin => bin
  | fuel + 1, bin =>
    if bin + 2 < edges.length then
      match vecGet edges (bin + 1) with
      | some e => if e < coord then endEdgeStep edges coord fuel (bin + 1) else bin
      | none => bin
    else bin

/-- `variable::bin_detail::begin_edge` (`lib/variable/bin_detail.cpp` 22-31) along a 1-D coordinate: `bin` is accumulated
from one coordinate to the next. -/
def beginEdges (edges : List α) : List α → Int → List Int
  | [], _ => []
  | c :: cs, bin =>
    let bin := beginEdgeStep edges c edges.length bin
    bin :: beginEdges edges cs bin

/-- `variable::bin_detail::end_edge` (`lib/variable/bin_detail.cpp` 38-47). -/
def endEdges (edges : List α) : List α → Int → List Int
  | [], _ => []
  | c :: cs, bin =>
    let bin := endEdgeStep edges c edges.length bin
    (bin + 2) :: endEdges edges cs bin

end Scipp
