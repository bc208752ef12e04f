import Verif.Model.View
import Verif.Model.Extract
/-
Model of indexing from Python, `lib/python/bind_slice_methods.h`: `obj[dim, i]`, `obj[dim, start:stop:step]` and `obj[dim, [i, j, ...]]`.

The interpreter's part, `PySlice_GetIndicesEx` (called through `py::slice::compute`), is modelled after the documentation and source of
CPython (`Objects/sliceobject.c`: `PySlice_Unpack`, `PySlice_AdjustIndices`); it is not in the repository. `None` is `Option.none`.
-/
namespace Scipp.Py

/-- `PY_SSIZE_T_MAX` of CPython on a 64 bit platform (not in the repository). -/
def ssizeMax : Int := 9223372036854775807

/-- `_PyEval_SliceIndex` of CPython (not in the repository; called by `indices.compute`, `bind_slice_methods.h` 46): integers that do not
fit are replaced by the nearest ones that do. -/
def saturate (x : Int) : Int := if x > ssizeMax then ssizeMax else if x < -ssizeMax - 1 then -ssizeMax - 1 else x

/-- The step in `PySlice_Unpack` of CPython (not in the repository; called by `indices.compute`, `bind_slice_methods.h` 46). -/
def unpackStep : Option Int → Int
  | none => 1
  | some k => max (saturate k) (-ssizeMax)

/-- The start in `PySlice_Unpack` of CPython (not in the repository; called by `indices.compute`, `bind_slice_methods.h` 46). -/
def unpackStart (st : Int) : Option Int → Int
  | none => if st < 0 then ssizeMax else 0
  | some x => saturate x

/-- The stop in `PySlice_Unpack` of CPython (not in the repository; called by `indices.compute`, `bind_slice_methods.h` 46). -/
def unpackStop (st : Int) : Option Int → Int
  | none => if st < 0 then -ssizeMax - 1 else ssizeMax
  | some x => saturate x

/-- `PySlice_Unpack` of CPython (not in the repository; called by `indices.compute`, `bind_slice_methods.h` 46). A zero step raises
`ValueError`, here `invalidArgument`. -/
def unpack (start stop step : Option Int) : Except Err (Int × Int × Int) :=
  if unpackStep step = 0 then .error .invalidArgument
  else .ok (unpackStart (unpackStep step) start, unpackStop (unpackStep step) stop, unpackStep step)

/-- The adjustment of one bound in `PySlice_AdjustIndices` of CPython (not in the repository; called by `indices.compute`,
`bind_slice_methods.h` 46). -/
def adjust (length step x : Int) : Int :=
  if x < 0 then
    if x + length < 0 then (if step < 0 then -1 else 0) else x + length
  else if x ≥ length then (if step < 0 then length - 1 else length)
  else x

/-- The number of selected elements in `PySlice_AdjustIndices` of CPython (not in the repository; called by `indices.compute`,
`bind_slice_methods.h` 46). -/
def sliceLength (b e step : Int) : Int :=
  if step < 0 then (if e < b then (b - e - 1).tdiv (-step) + 1 else 0)
  else if b < e then (e - b - 1).tdiv step + 1
  else 0

/-- `from_py_slice` (`bind_slice_methods.h` 41-54) for the extent `size` of the dim. The unsigned results of `compute` are converted back to
signed numbers by the constructor of `Slice`, which gives the original values. -/
def fromPySlice (size : Int) (dim : Dim) (start stop step : Option Int) : Except Err Slice := do
  let (b, e, st) ← unpack start stop step
  let b := adjust size st b
  let e := adjust size st e
  let e := if sliceLength b e st = 0 then b else e
  Slice.range dim b e st

/-- `get_slice` (`bind_slice_methods.h` 77-86) for the extent `size` of the dim. -/
def getSlice (size : Int) (dim : Dim) (i : Int) : Except Err Slice :=
  if i < -size ∨ i ≥ size then .error .outOfRange
  else Slice.point dim (if i < 0 then size + i else i)

/-- `dim_extent` of a dataset (`bind_slice_methods.h` 30-39): -1 if there is no such dim. -/
def dimExtentDataset (s : Sizes) (dim : Dim) : Int :=
  match Sizes.at? s dim with
  | .ok n => n
  | .error _ => -1

/-- `getitem` with an integer (`bind_slice_methods.h` 109-112) for a variable. -/
def getitemInt (v : View) (dim : Dim) (i : Int) : Except Err View := do
  let n ← Sizes.at? v.dims dim
  let s ← getSlice n dim i
  v.slice s

/-- `getitem` with a slice of integers (`bind_slice_methods.h` 114-117, 88-107) for a variable. -/
def getitemSlice (v : View) (dim : Dim) (start stop step : Option Int) : Except Err View := do
  let n ← Sizes.at? v.dims dim
  let s ← fromPySlice n dim start stop step
  v.slice s

/-- `expect_implicit_dimension` followed by the access to the only dim (`bind_slice_methods.h` 191-204, 254-262). -/
def implicitDim (dims : Dims) : Except Err Dim :=
  match dims with
  | [p] => .ok p.1
  | _ => .error .dimension

/-- `make_slice` in `slice_by_list` (`bind_slice_methods.h` 221-228). -/
def makeSlice (p s : Int) : Except Err (Int × Int) :=
  let positive := if p < 0 then s + p else p
  if positive < 0 ∨ positive ≥ s then .error .outOfRange else .ok (positive, positive + 1)

/-- `slice_by_list` (`bind_slice_methods.h` 218-247). The object is given as a table of rows along `dim`. The minimum and maximum of the
indices are modelled by the existence of an index that is too small or too large. -/
def sliceByList {V : Type} (eqv : V → V → Bool) (init : Nat → V) (dim : Dim) (indices : List Int) (t : Bins.Table V) :
    Except Err (Bins.Table V) := do
  let size : Int := t.data.length
  if indices.any (fun i => decide (i < -size ∨ i ≥ size)) then throw .outOfRange
  let ranges ← indices.mapM (fun p => makeSlice p size)
  Bins.extractRanges eqv init dim ranges t

end Scipp.Py
