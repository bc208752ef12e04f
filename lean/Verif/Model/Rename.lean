import Verif.Model.DatasetSlice
import Verif.Model.DatasetOps
/-
Renaming dims of data arrays and datasets and transposing them: `lib/dataset/data_array.cpp`, `lib/dataset/dataset.cpp`, `lib/dataset/shape.cpp`. Names of data
arrays are not modelled.
-/
namespace Scipp
open DatasetOps (makeArrayFrom fill invalidDset orEmpty)

/-- `Variable::rename_dims` for data, coords, ... (`lib/variable/variable.cpp` 275-281). -/
def Entry.renameDims (e : Entry) (names : List (Dim × Dim)) (strict : Bool) : Except Err Entry := do
  let view ← e.view.renameDims names strict
  return { e with view }

/-- `DataArray::rename_dims` (`data_array.cpp` 208-214). -/
def DArray.renameDims (a : DArray) (names : List (Dim × Dim)) (strict : Bool) : Except Err DArray := do
  let data ← a.data.renameDims names strict
  let coords ← a.coords.renameDims names false
  let masks ← a.masks.renameDims names false
  let attrs ← a.attrs.renameDims names false
  makeArrayFrom data coords masks attrs

/-- The loop of `Dataset::rename_dims` (`dataset.cpp` 269-270). -/
def Dset.renameItems (eq eqn : Entry → Entry → Bool) (names : List (Dim × Dim)) : Dset → List (Dim × DItem) → Except Err Dset
  | d, [] => .ok d
  | d, (name, it) :: rest => do
    let a ← it.array.renameDims names false
    match d.setDataArray eq eqn name a with
    | (_, some err) => .error err
    | (d, none) => Dset.renameItems eq eqn names d rest

/-- `Dataset::rename_dims` (`dataset.cpp` 266-272). -/
def Dset.renameDims (eq eqn : Entry → Entry → Bool) (d : Dset) (names : List (Dim × Dim)) : Except Err Dset := do
  let coords ← d.coords.renameDims names true
  Dset.renameItems eq eqn names ⟨coords, [], false, true⟩ d.items

/-- `transpose` of data, coords, ... (`variable/shape.cpp` 131-133). -/
def Entry.transpose (e : Entry) (order : List Dim) : Except Err Entry := do
  let view ← e.view.transpose order
  return { e with view }

/-- `transpose` of a data array (`dataset/shape.cpp` 303-306). -/
def DArray.transpose (a : DArray) (order : List Dim) : Except Err DArray := do
  let data ← a.data.transpose order
  makeArrayFrom data a.coords a.masks a.attrs

/-- `transpose` of a dataset (`dataset/shape.cpp` 308-310, `dataset_operations_common.h` 75-81). -/
def Dset.transpose (eq eqn : Entry → Entry → Bool) (d : Dset) (order : List Dim) : Except Err Dset := do
  let r ← fill eq eqn invalidDset (d.items.map fun p => (p.1, do DArray.transpose (← d.get p.1) order))
  return orEmpty r

end Scipp
