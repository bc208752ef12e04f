import Verif.Model.Rebin
import Verif.Model.Collapse
import Mathlib.Algebra.Order.Ring.Rat
import Mathlib.Algebra.Field.Rat
/-
Rebinning of data arrays along several dims: `scipp.rebin` (`src/scipp/core/binning.py` 899-970) with edges given as variables.

Elements, edges and masks are functions of a position. `none` is NaN. The order of the dims of the output (C84), variances, units, types, attrs, datasets and other dims of the new edges than those of the data
are not modelled, nor are data without bins along the dim (C28). How edges are made from numbers is C108. Memory layout is C84.
-/
namespace Scipp.RebinDims
open Scipp

/-- A coord: dims with their lengths, and values. -/
structure Coord where
  dims : List (Dim × Int)
  x : (Dim → Int) → ℚ

/-- A mask: dims and values. -/
structure Mask where
  dims : List Dim
  m : (Dim → Int) → Bool

/-- A data array (`lib/dataset/include/scipp/dataset/data_array.h`). -/
structure Array where
  dims : List (Dim × Int)
  val : (Dim → Int) → Option ℚ
  coords : List (Dim × Coord)
  masks : List (Dim × Mask)

/-- The length along a dim (`lib/core/sizes.cpp`, `Sizes::operator[]`). -/
def lengthOf (dims : List (Dim × Int)) (d : Dim) : Option Int := (dims.find? (fun p => p.1 == d)).map (·.2)

/-- The position with one coordinate replaced. -/
def place (c : Dim → Int) (d : Dim) (i : Int) : Dim → Int := fun e => if e = d then i else c e

/-- The values of a coord along a dim (the spans of `transform_subspan`, `lib/variable/rebin.cpp` 141-152). -/
def rowAt (k : Coord) (d : Dim) (c : Dim → Int) : List ℚ := (List.range ((lengthOf k.dims d).getD 0).toNat).map fun (i : Nat) => k.x (place c d i)

/-- All rows of a coord along a dim. -/
def rows (k : Coord) (d : Dim) : List (List ℚ) :=
  (Collapse.tuples ((k.dims.filter (fun p => p.1 != d)).map (fun p => p.2.toNat))).map fun t =>
    rowAt k d ((((k.dims.filter (fun p => p.1 != d)).map (·.1)).zip t).foldl (fun c p => place c p.1 p.2) (fun _ => 0))

/-- Each element relates to the next one. -/
def chain (r : ℚ → ℚ → Bool) : List ℚ → Bool
  | a :: b :: rest => r a b && chain r (b :: rest)
  | _ => true

/-- `allsorted` (`lib/variable/util.cpp`; C62). -/
def sortedAlong (r : ℚ → ℚ → Bool) (k : Coord) (d : Dim) : Bool := (rows k d).all (chain r)

/-- `where(irreducible_mask(masks, dim), zero, var)` (`lib/dataset/rebin.cpp` 14-23). -/
def masked (a : Array) (d : Dim) (c : Dim → Int) : Option ℚ :=
  if a.masks.any (fun e => e.2.dims.contains d && e.2.m c) then some 0 else a.val c

/-- `rebin(var, dim, oldCoord, newCoord)` (`lib/variable/rebin.cpp` 92-168) applied to every row, for the data with masks applied (`lib/dataset/rebin.cpp` 14-23). Without `is_edges` or sorted edges it is an
error (102-104, 126-131). -/
def rebinData (a : Array) (d : Dim) (old new : Coord) : Except Err (List (Dim × Int) × ((Dim → Int) → Option ℚ)) :=
  match lengthOf a.dims d with
  | none => .error .dimension
  | some n =>
    if lengthOf old.dims d ≠ some (n + 1) then .error .binEdge
    else
      let ascending := sortedAlong (fun x y => decide (x ≤ y)) old d && sortedAlong (fun x y => decide (x ≤ y)) new d
      let descending := sortedAlong (fun x y => decide (y ≤ x)) old d && sortedAlong (fun x y => decide (y ≤ x)) new d
      if !ascending && !descending then .error .binEdge
      else
        match lengthOf new.dims d with
        | none => .error .dimension
        | some m =>
          let less : ℚ → ℚ → Bool := if ascending then fun x y => decide (x < y) else fun x y => decide (y < x)
          .ok (a.dims.map (fun p => if p.1 = d then (d, m - 1) else p), fun c =>
            (Rebin.rebin less (rowAt new d c) (rowAt old d c) ((List.range n.toNat).map fun (i : Nat) => masked a d (place c d i))).getD (c d).toNat none)

/-- `rebin(a, dim, coord)` (`lib/dataset/rebin.cpp` 25-31): coords and masks which depend on the dim are dropped (`dataset_operations_common.h` 13-36), then the new coord is set. -/
def rebinArray (a : Array) (d : Dim) (new : Coord) : Except Err Array :=
  match a.coords.find? (fun e => e.1 == d) with
  | none => .error .notFound
  | some old =>
    match rebinData a d old.2 new with
    | .error e => .error e
    | .ok (dims, val) =>
      .ok ⟨dims, val, (a.coords.filter (fun e => (lengthOf e.2.dims d).isNone)).filter (fun e => e.1 != d) ++ [(d, new)],
        a.masks.filter (fun e => !e.2.dims.contains d)⟩

/-- The loop of `scipp.rebin` (`binning.py` 966-969). -/
def rebinAll : Array → List (Dim × Coord) → Except Err Array
  | a, [] => .ok a
  | a, (d, new) :: rest =>
    match rebinArray a d new with
    | .error e => .error e
    | .ok b => rebinAll b rest

end Scipp.RebinDims
