import Verif.Model.DatasetOps
import Verif.Model.Squeeze
/-
Operations that drop a dim of a data array or change its extent, and what happens to coords, masks and attrs: `lib/dataset/dataset_operations_common.h`, with its users
`lib/templates/dataset_reduction.cpp.in`, `lib/dataset/mean.cpp`, `lib/dataset/rebin.cpp`, `lib/dataset/histogram.cpp`, `lib/dataset/shape.cpp`. The computation of the data is a parameter, see
`Verif.Model.Masks`, `Verif.Model.RebinVar` and `Verif.Model.HistArray` for those. Names of data arrays are not modelled.
-/
namespace Scipp.DropDim
open DatasetOps (makeArray fill invalidDset orEmpty)

/-- The lambda `copy_independent` of `apply_or_copy_dim_impl` (`dataset_operations_common.h` 15-21). `f` is the identity if `share` is set, and otherwise `copy`. -/
def copyIndependent (dim : Dim) (f : Entry → Entry) (items : List (Dim × Entry)) : List (Dim × Entry) :=
  items.foldl (fun out p => if Sizes.contains p.2.dims dim then out else insertEntry out p.1 (f p.2)) []

/-- `apply_or_copy_dim_impl` (`dataset_operations_common.h` 12-36); `func` gets the data array, from which it may use the data only. -/
def applyAndDropDim (copy : Entry → Entry) (func : DArray → Dim → Except Err Entry) (a : DArray) (dim : Dim) : Except Err DArray := do
  let coords := copyIndependent dim id a.coords.items
  let attrs := copyIndependent dim id a.attrs.items
  let masks := copyIndependent dim copy a.masks.items
  let data ← func a dim
  makeArray data coords masks attrs

/-- The reduction of a data array along a dim (`dataset_reduction.cpp.in` 21-28, `mean.cpp` 18-21). `op` reduces the data; it gets the masks, too. -/
def reduce (copy : Entry → Entry) (op : Entry → Dim → List (Dim × Entry) → Except Err Entry) (a : DArray) (dim : Dim) : Except Err DArray :=
  applyAndDropDim copy (fun a dim => op a.data dim a.masks.items) a dim

/-- The loop of `reduce_all_dims` (`lib/variable/operations_common.h` 46-47), which stops when there are no more dims. The first argument bounds the number of iterations, since not every function
removes a dim; it is the number of dims. -/
def reduceLoop (f : DArray → Dim → Except Err DArray) : Nat → DArray → Except Err DArray
  | 0, a => .ok a
  | n + 1, a => if a.data.dims = [] then .ok a else do
    let a ← f a (Dims.inner a.data.dims)
    reduceLoop f n a

/-- `reduce_all_dims` for data arrays (`lib/variable/operations_common.h` 38-49, `dataset_reduction.cpp.in` 15-19). `copyArray` is the copy of a data array. -/
def reduceAll (copyArray : DArray → DArray) (f : DArray → Dim → Except Err DArray) (a : DArray) : Except Err DArray :=
  if a.data.dims = [] then
    if a.data.binned then f a Dim.invalid else .ok (copyArray a)
  else reduceLoop f a.data.dims.length a

/-- `a.coords()[dim]` (`sized_dict.cpp` 151-162). -/
def coordOf (a : DArray) (dim : Dim) : Except Err Entry :=
  match lookupEntry a.coords.items dim with
  | none => .error .notFound
  | some e => .ok e

/-- `rebin` of a data array (`lib/dataset/rebin.cpp` 25-31). `op` is `rebin` for variables with masks (`Verif.Model.RebinVar`). -/
def rebinArray (copy : Entry → Entry) (op : Entry → Dim → Entry → Entry → List (Dim × Entry) → Except Err Entry) (a : DArray) (dim : Dim) (coord : Entry) :
    Except Err DArray := do
  let old ← coordOf a dim
  let r ← applyAndDropDim copy (fun a dim => op a.data dim old coord a.masks.items) a dim
  let coords ← r.coords.set dim coord
  return { r with coords }

/-- `is_histogram` (`lib/dataset/histogram.cpp` 123-133). -/
def isHistogram (a : DArray) (dim : Dim) : Bool :=
  match lookupEntry a.coords.items dim, Sizes.at? a.data.dims dim with
  | some e, .ok n => match Sizes.at? e.dims dim with
    | .ok m => decide (m = n + 1)
    | .error _ => false
  | _, _ => false

/-- The dim of the events (`histogram.cpp` 28-49): that of the histogram if the data is binned, otherwise the dim of the coord. -/
def eventDim (a : DArray) (dim : Dim) : Except Err Dim :=
  if a.data.binned then .ok dim
  else if isHistogram a dim then .error .binEdge
  else match lookupEntry a.coords.items dim with
    | none => .error .notFound
    | some e => .ok (a.coords.dimOf dim e)

/-- `histogram` of a data array (`histogram.cpp` 27-90). `op` computes the data, see `Verif.Model.HistArray`. -/
def histogramArray (copy : Entry → Entry) (op : DArray → Dim → Entry → Except Err Entry) (a : DArray) (edges : Entry) : Except Err DArray := do
  let dim := Dims.inner edges.dims
  let ed ← eventDim a dim
  let r ← applyAndDropDim copy (fun a ed => op a ed edges) a ed
  let coords ← r.coords.set dim edges
  return { r with coords }

/-- `apply_to_items` for datasets (`dataset_operations_common.h` 75-81), the implementation of all these operations for datasets (`dataset_reduction.cpp.in` 30-47,
`mean.cpp` 27-33, `rebin.cpp` 33-35, `histogram.cpp` 92-99, `shape.cpp` 154-157). -/
def applyToItems (eq eqn : Entry → Entry → Bool) (f : DArray → Except Err DArray) (d : Dset) : Except Err Dset := do
  let r ← fill eq eqn invalidDset (d.items.map fun p => (p.1, do f (← d.get p.1)))
  return orEmpty r

end Scipp.DropDim
