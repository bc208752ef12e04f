import Verif.Model.View
import Mathlib.Order.Defs.LinearOrder
/-
Slicing by label: `get_slice_params` (`lib/variable/slice.cpp`) and `slice` (`lib/dataset/slice.cpp`).
Values are elements of a linear order; `none` is NaN.
-/
namespace Scipp.Label
open Scipp
variable {α : Type} [LinearOrder α]

/-- `x <= y` for floating-point values: false if one of them is NaN. -/
def fle : Option α → Option α → Bool
  | some x, some y => decide (x ≤ y)
  | _, _ => false

/-- `x == y` for floating-point values: false if one of them is NaN. -/
def feq : Option α → Option α → Bool
  | some x, some y => decide (x = y)
  | _, _ => false

/-- A coord (`lib/variable/include/scipp/variable/variable.h`): dims, values in row-major order, unit, and whether `is_total_orderable` holds
for the dtype (`lib/core/dtype.cpp` 21-23). -/
structure Coord (α : Type) where
  dims : Dims
  vals : List (Option α)
  unit : Nat
  orderable : Bool := true

/-- A value to slice with (`lib/variable/include/scipp/variable/variable.h`). -/
structure Value (α : Type) where
  dims : Dims := []
  val : Option α
  unit : Nat
  orderable : Bool := true

/-- `get_count` (`slice.cpp` 19-24). -/
def getCount (vals : List (Option α)) (value : Option α) (ascending : Bool) : Int :=
  if ascending then vals.countP (fun x => fle x value) else vals.countP (fun x => fle value x)

/-- `std::clamp(v, lo, hi)` for `lo <= hi` as used in `get_index` (`slice.cpp` 31). -/
def clamp (v lo hi : Int) : Int := if v < lo then lo else if hi < v then hi else v

/-- `get_index` (`slice.cpp` 26-32) for a 1-D coord of length `n`. Note the order of the arguments of `clamp`. -/
def getIndex (vals : List (Option α)) (n : Int) (value : Option α) (ascending edges : Bool) : Int :=
  let i := getCount vals value (edges == ascending)
  let i := if edges then i - 1 else n - i
  clamp 0 i n

/-- `allsorted` (`lib/variable/util.cpp` 60-84, `lib/core/include/scipp/core/element/util.h` 83-91) for a 1-D variable. -/
def allSorted (ascending : Bool) : List (Option α) → Bool
  | x :: y :: l => (if ascending then fle x y else fle y x) && allSorted ascending (y :: l)
  | _ => true

/-- `get_coord` (`slice.cpp` 41-52) including `get_1d_coord` (34-39): whether the coord is ascending. -/
def getCoord (coord : Coord α) (dim : Dim) : Except Err Bool :=
  if coord.dims.length ≠ 1 then .error .dimension
  else
    match Sizes.at? coord.dims dim with
    | .error e => .error e
    | .ok n =>
      if n = 1 then .ok true
      else
        let ascending := allSorted true coord.vals
        let descending := allSorted false coord.vals
        if (ascending ^^ descending) = false then .error .runtime else .ok ascending

/-- `expect_valid_slice_value` (`slice.cpp` 54-83). -/
def checkValue (coord : Coord α) (value : Value α) (isRange : Bool) : Except Err Unit :=
  if value.dims ≠ [] then .error .dimension
  else if coord.unit ≠ value.unit then .error .unit
  else if isRange && !value.orderable then .error .dtype
  else .ok ()

/-- `expect_valid_slice_value` for an argument that may be invalid, i.e. not given (`slice.cpp` 78). -/
def checkOptional (coord : Coord α) : Option (Value α) → Except Err Unit
  | none => .ok ()
  | some value => checkValue coord value true

/-- `get_slice_params` for a single value (`slice.cpp` 85-103). -/
def pointParams (sizes : Sizes) (coord : Coord α) (value : Value α) : Except Err (Dim × Int) :=
  match checkValue coord value false with
  | .error e => .error e
  | .ok _ =>
    let dim := Dims.inner coord.dims
    match Sizes.at? sizes dim with
    | .error e => .error e
    | .ok n =>
      match Sizes.at? coord.dims dim with
      | .error e => .error e
      | .ok m =>
        if n + 1 = m then
          match getCoord coord dim with
          | .error e => .error e
          | .ok ascending => .ok (dim, getCount coord.vals value.val ascending - 1)
        else if coord.dims.length ≠ 1 then .error .dimension
        else if coord.vals.countP (fun x => feq x value.val) ≠ 1 then .error .slice
        else .ok (dim, (coord.vals.findIdx (fun x => feq x value.val) : Nat))

/-- One of the bounds in `get_slice_params` for a range (`slice.cpp` 115-118). -/
def bound (vals : List (Option α)) (n : Int) (value : Option (Value α)) (ascending edges : Bool) (default : Int) : Int :=
  match value with
  | none => default
  | some v => getIndex vals n v.val ascending edges

/-- `get_slice_params` for a range (`slice.cpp` 105-121). -/
def rangeParams (sizes : Sizes) (coord : Coord α) (first last : Option (Value α)) : Except Err (Dim × Int × Int) :=
  match checkOptional coord first with
  | .error e => .error e
  | .ok _ =>
    match checkOptional coord last with
    | .error e => .error e
    | .ok _ =>
      if coord.orderable = false then .error .dtype
      else
        let dim := Dims.inner coord.dims
        match getCoord coord dim with
        | .error e => .error e
        | .ok ascending =>
          match Sizes.at? sizes dim with
          | .error e => .error e
          | .ok n =>
            match Sizes.at? coord.dims dim with
            | .error e => .error e
            | .ok m =>
              let edges := decide (n + 1 = m)
              .ok (dim, bound coord.vals m first ascending edges 0, min n (bound coord.vals m last ascending false n))

/-- `data.slice(std::make_from_tuple<Slice>(...))` for a point (`lib/dataset/slice.cpp` 29-33): the slice, if it is valid for data of the
given sizes. -/
def pointSlice (sizes : Sizes) (coord : Coord α) (value : Value α) : Except Err Slice :=
  match pointParams sizes coord value with
  | .error e => .error e
  | .ok (dim, i) =>
    match Slice.point dim i with
    | .error e => .error e
    | .ok p =>
      match Sizes.slice sizes p with
      | .error e => .error e
      | .ok _ => .ok p

/-- `data.slice(std::make_from_tuple<Slice>(...))` for a range (`lib/dataset/slice.cpp` 35-40). -/
def rangeSlice (sizes : Sizes) (coord : Coord α) (first last : Option (Value α)) : Except Err Slice :=
  match rangeParams sizes coord first last with
  | .error e => .error e
  | .ok (dim, i, j) =>
    match Slice.range dim i j with
    | .error e => .error e
    | .ok p =>
      match Sizes.slice sizes p with
      | .error e => .error e
      | .ok _ => .ok p

end Scipp.Label
