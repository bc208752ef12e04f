import Verif.Model.Dataset
/-
Slicing and squeezing of data arrays, and `meta`: `lib/dataset/data_array.cpp`, `lib/dataset/shape.cpp`. Names of data arrays are not modelled.
-/
namespace Scipp

/-- `DataArray::slice` (`lib/dataset/data_array.cpp` 129-134). The constructor sets the sizes of the dictionaries to those of the data
(`data_array.cpp` 34-44); the dictionaries are moved, so the flag `m_readonly` set by `slice` stays. The flag of the data array itself is not modelled. -/
def DArray.slice (a : DArray) (p : Slice) : Except Err DArray := do
  let view ← a.data.view.slice p
  let coords ← a.coords.sliceCoords p
  let masks ← a.masks.slice p
  let attrs ← a.attrs.slice p
  let coords ← coords.setSizes view.dims
  let masks ← masks.setSizes view.dims
  let attrs ← attrs.setSizes view.dims
  return ⟨{ a.data with view }, coords, masks, attrs⟩

/-- `DataArray::meta` (`data_array.cpp` 123-127). -/
def DArray.meta (a : DArray) : Except Err SizedDict := do
  let out ← a.attrs.mergeFrom a.coords
  return { out with readonly := true }

/-- `squeeze` of a data array (`lib/dataset/shape.cpp` 312-327). The copy at the end resets the read-only flags of the
dictionaries (`data_array.cpp` 23-30, `sized_dict.cpp` 81-83). -/
def DArray.squeeze (a : DArray) (sel : Option (List Dim)) : Except Err DArray := do
  let ds ← View.dimsForSqueezing a.data.dims sel
  let r ← ds.foldlM (fun a d => a.slice ⟨d, 0, -1, 1⟩) a
  return ⟨r.data, { r.coords with readonly := false }, { r.masks with readonly := false }, { r.attrs with readonly := false }⟩

end Scipp
