import Verif.Model.Histogram
import Verif.Model.Domains
import Verif.Model.Midpoints

/-!
# Lookup tables

`lookup` (`src/scipp/core/bins.py` 69-137) and the class `Lookup` (23-66), for a table of one dimension, and the rearrangement of tables of
several dimensions. Evaluation at a point is `buckets::map` and `lookup_previous`, see `Verif/Model/Histogram.lean` (C26).
-/

namespace Scipp.LookupTable

variable {α W : Type} [LinearOrder α]

/-- The modes (`bins.py` 128-131); `other` is any other string. -/
inductive Mode where
  | previous | nearest | other
  deriving DecidableEq

/-- The table (`func` after `bins.py` 112): the coordinate of the dimension, the values, and the masks. All masks depend on the dimension. `mergeable`: the
values are of type bool, int32, or int64 (43). -/
structure Table (α W : Type) where
  xs : List α
  values : List W
  masks : List (List Bool)
  mergeable : Bool

/-- The union of the masks (`lib/dataset/operations.cpp` 118-127 with `irreducible_mask`); nothing is masked if there is none. -/
def Table.mask (t : Table α W) : List Bool :=
  (List.range t.values.length).map fun i => t.masks.any fun m => m.getD i false

/-- The transitions, `func.data[:-1] != func.data[1:]` (`bins.py` 52). -/
def transitions (ne : W → W → Bool) : List W → List Bool
  | a :: b :: vs => ne a b :: transitions ne (b :: vs)
  | _ => []

/-- The points at transitions, after the first (`bins.py` 52-53). -/
def mergePoints (ne : W → W → Bool) (t : Table α W) : Table α W :=
  { t with
    xs := t.xs.take 1 ++ Domains.select (transitions ne t.values) (t.xs.drop 1)
    values := t.values.take 1 ++ Domains.select (transitions ne t.values) (t.values.drop 1) }

/-- Merging of equal values by the constructor (`bins.py` 39-53). `hist`: the operation is `buckets::map`. `lin` is `islinspace`. The dimension is the only one
(41), so this condition is left out. -/
def merge (lin : List α → Bool) (ne : W → W → Bool) (hist : Bool) (t : Table α W) : Except Err (Table α W) :=
  if t.masks.isEmpty && !t.values.isEmpty && t.mergeable then
    if hist then
      if lin t.xs then .ok t
      else
        match Domains.mergeEqualAdjacent ne t.values t.xs with
        | .error e => .error e
        | .ok (v, x) => .ok { t with xs := x, values := v }
    else .ok (mergePoints ne t)
  else .ok t

/-- The midpoints of all neighbors (`bins.py` 135, C73). `mid` is the midpoint of two elements. -/
def midpointsOf (mid : α → α → Except Err α) : List α → Except Err (List α)
  | a :: b :: xs =>
    match mid a b with
    | .error e => .error e
    | .ok m =>
      match midpointsOf mid (b :: xs) with
      | .error e => .error e
      | .ok ms => .ok (m :: ms)
  | _ => .ok []

/-- The coordinate used for lookup of the nearest point (`bins.py` 132-136): the lowest representable value in place of the first point, the midpoints in place
of the others. -/
def nearestCoord (mid : α → α → Except Err α) (lowest : α) (xs : List α) : Except Err (List α) :=
  if xs.length < 2 then .ok [lowest]
  else
    match midpointsOf mid xs with
    | .error e => .error e
    | .ok ms => .ok (lowest :: ms)

/-- `lookup` (`bins.py` 110-137) followed by evaluation at one point, `Lookup.__call__` (60-62). The coordinate is bin edges if it has one element more than the
values (124). `x` is `none` for a NaN. -/
def lookup (lin : List α → Bool) (guess : List α → α → Int) (mid : α → α → Except Err α) (lowest : α) (ne : W → W → Bool)
    (t : Table α W) (mode : Option Mode) (fill : W) (x : Option α) : Except Err W :=
  if t.xs.length = t.values.length + 1 then
    if mode.isSome then .error .invalidArgument
    else
      match merge lin ne true t with
      | .error e => .error e
      | .ok t' => mapFunction lin guess t'.xs t'.mask t'.values fill x
  else if mode.getD .nearest = .other then .error .invalidArgument
  else
    let coord := if mode.getD .nearest = .nearest ∧ t.values.length ≠ 0 then nearestCoord mid lowest t.xs else .ok t.xs
    match coord with
    | .error e => .error e
    | .ok c =>
      match merge lin ne false { t with xs := c } with
      | .error e => .error e
      | .ok t' => lookupPrevious t'.xs t'.mask t'.values fill x

/-- The transposition of a mask (`bins.py` 119-123): its dims in the new order, the default order if it has none. -/
def arrangeMask (order : List Dim) (m : Dims) : Except Err Dims :=
  Dims.transpose m (order.filter fun d => d ∈ Sizes.labels m)

/-- The rearrangement of a table of several dimensions (`bins.py` 113-123): dims of the data, of the coordinate, and of the masks, such that `dim` is the
inner one. -/
def arrange (data coord : Dims) (masks : List Dims) (dim : Dim) : Except Err (Dims × Dims × List Dims) :=
  if (Sizes.labels data).getLast? ≠ some dim then
    let order := (Sizes.labels data).filter (· ≠ dim) ++ [dim]
    match Dims.transpose data order with
    | .error e => .error e
    | .ok data' =>
      match Dims.transpose coord order with
      | .error e => .error e
      | .ok coord' =>
        match masks.mapM (arrangeMask order) with
        | .error e => .error e
        | .ok masks' => .ok (data', coord', masks')
  else .ok (data, coord, masks)

end Scipp.LookupTable
