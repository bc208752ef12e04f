import Verif.Model.Squeeze
/-
Slicing and squeezing of datasets: `lib/dataset/dataset.cpp`, `lib/dataset/shape.cpp`. Names of data arrays are not modelled.
-/
namespace Scipp

/-- The data array in `m_data` that holds an item: it has no coords (`lib/dataset/dataset.cpp` 150-155). -/
def DItem.array (it : DItem) : DArray := ⟨it.data, ⟨it.data.dims, [], false⟩, it.masks, it.attrs⟩

/-- `DataArray::as_const` (`data_array.cpp` 217-222). The constructor sets the sizes of the dictionaries (34-44). -/
def DArray.asConst (a : DArray) : Except Err DArray := do
  let coords ← a.coords.asConst
  let masks ← a.masks.asConst
  let attrs ← a.attrs.asConst
  let coords ← coords.setSizes a.data.dims
  let masks ← masks.setSizes a.data.dims
  let attrs ← attrs.setSizes a.data.dims
  return ⟨{ a.data with view := a.data.view.asConst }, coords, masks, attrs⟩

/-- `slice_map` for an item of a dataset (`lib/dataset/include/scipp/dataset/sized_dict.h` 20-39). -/
def sliceItem (sizes : Sizes) (p : Slice) (it : DItem) : Except Err DArray :=
  if Sizes.contains it.data.dims p.dim then do
    let n ← Sizes.at? it.data.dims p.dim
    let m ← Sizes.at? sizes p.dim
    if n = m then it.array.slice p
    else
      let q ← edgeSlice p
      it.array.slice q
  else if p = Slice.none then .ok it.array
  else it.array.asConst

/-- `slice_map` (`sized_dict.h` 17-43) for the items of a dataset. -/
def sliceItems (sizes : Sizes) (p : Slice) : List (Dim × DItem) → Except Err (List (Dim × DArray))
  | [] => .ok []
  | (k, it) :: rest => do
    let a ← sliceItem sizes p it
    let rest ← sliceItems sizes p rest
    return (k, a) :: rest

/-- Loop over the data in the constructor of `Dataset` (`lib/dataset/include/scipp/dataset/dataset.h` 82-89). -/
def Dset.addAll (eq eqn : Entry → Entry → Bool) : Dset → List (Dim × DArray) → Except Err Dset
  | d, [] => .ok d
  | d, (k, a) :: rest =>
    match d.setDataArray eq eqn k a with
    | (_, some err) => .error err
    | (d', none) => Dset.addAll eq eqn d' rest

/-- Constructor of `Dataset` from data arrays, without coords (`dataset.h` 62-89). -/
def Dset.ofArrays (eq eqn : Entry → Entry → Bool) : List (Dim × DArray) → Except Err Dset
  | [] => .ok ⟨⟨[], [], false⟩, [], false, true⟩
  | (k, a) :: rest => Dset.addAll eq eqn ⟨⟨a.data.dims, [], false⟩, [], false, true⟩ ((k, a) :: rest)

/-- `Dataset::slice` (`dataset.cpp` 229-235). -/
def Dset.slice (eq eqn : Entry → Entry → Bool) (d : Dset) (p : Slice) : Except Err Dset := do
  let items ← sliceItems d.coords.sizes p d.items
  let out ← Dset.ofArrays eq eqn items
  let coords ← d.coords.sliceCoords p
  return { out with coords, readonly := true }

/-- Copy constructors of `Dataset`, `DataArray` and `SizedDict` (`dataset.cpp` 46-48, `data_array.cpp` 24-33, `sized_dict.cpp` 81-83): shallow copies
that are not read-only. -/
def Dset.shallow (d : Dset) : Dset :=
  { d with coords := { d.coords with readonly := false }, readonly := false,
           items := d.items.map (fun p => (p.1, { p.2 with masks := { p.2.masks with readonly := false }, attrs := { p.2.attrs with readonly := false } })) }

/-- `squeeze` of a dataset (`lib/dataset/shape.cpp` 312-334). -/
def Dset.squeeze (eq eqn : Entry → Entry → Bool) (d : Dset) (sel : Option (List Dim)) : Except Err Dset := do
  let ds ← View.dimsForSqueezing d.coords.sizes sel
  let r ← ds.foldlM (fun d x => d.slice eq eqn ⟨x, 0, -1, 1⟩) d
  return r.shallow

end Scipp
