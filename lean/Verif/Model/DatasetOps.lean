import Verif.Model.Dataset
/-
Operations with datasets that yield a new dataset: binary operations (`lib/dataset/arithmetic.cpp` 85-122, `lib/templates/dataset_binary.cpp.in`) and `merge`
(`lib/dataset/operations.cpp` 20-36).
-/
namespace Scipp.DatasetOps

/-- The parts of a binary operation: on the data, on masks (`union_or`, see `Verif.Model.Masks`) and the comparisons `==` and `equals_nan` of variables
(`lib/templates/dataset_binary.cpp.in` 12-22). -/
structure BinaryOp where
  data : Entry → Entry → Except Err Entry
  masks : List (Dim × Entry) → List (Dim × Entry) → Except Err (List (Dim × Entry))
  copyMasks : List (Dim × Entry) → List (Dim × Entry)
  eq : Entry → Entry → Bool
  eqn : Entry → Entry → Bool

/-- The constructor of `DataArray` from data and dictionaries (`data_array.cpp` 46-54). -/
def makeArray (data : Entry) (coords masks attrs : List (Dim × Entry)) : Except Err DArray := do
  let coords ← SizedDict.ofItems data.dims coords false
  let masks ← SizedDict.ofItems data.dims masks false
  let attrs ← SizedDict.ofItems data.dims attrs false
  return ⟨data, coords, masks, attrs⟩

/-- The operation for two data arrays (`dataset_binary.cpp.in` 12-22). -/
def BinaryOp.arrays (op : BinaryOp) (a b : DArray) : Except Err DArray := do
  let coords ← union_ op.eqn a.coords.items b.coords.items
  let masks ← op.masks a.masks.items b.masks.items
  let attrs := intersection_ op.eqn a.attrs.items b.attrs.items
  let data ← op.data a.data b.data
  makeArray data coords masks attrs

/-- The constructor of `DataArray` from data and `Coords`, `Masks`, `Attrs` (`data_array.cpp` 34-44): the sizes are those of the data, which must include those of
the dictionaries. Copies of dictionaries are not read-only (`sized_dict.cpp` 81-83). -/
def makeArrayFrom (data : Entry) (coords masks attrs : SizedDict) : Except Err DArray := do
  let coords ← SizedDict.setSizes { coords with readonly := false } data.dims
  let masks ← SizedDict.setSizes { masks with readonly := false } data.dims
  let attrs ← SizedDict.setSizes { attrs with readonly := false } data.dims
  return ⟨data, coords, masks, attrs⟩

/-- The operation for a data array and a variable (`dataset_binary.cpp.in` 24-26). -/
def BinaryOp.arrayVar (op : BinaryOp) (a : DArray) (b : Entry) : Except Err DArray := do
  let data ← op.data a.data b
  makeArrayFrom data a.coords { a.masks with items := op.copyMasks a.masks.items } a.attrs

/-- The operation for a variable and a data array (`dataset_binary.cpp.in` 28-30). -/
def BinaryOp.varArray (op : BinaryOp) (a : Entry) (b : DArray) : Except Err DArray := do
  let data ← op.data a b.data
  makeArrayFrom data b.coords { b.masks with items := op.copyMasks b.masks.items } b.attrs

/-- The loop filling the result with `setDataInit` (`arithmetic.cpp` 86-122); it stops at the first exception. -/
def fill (eq eqn : Entry → Entry → Bool) : Dset → List (Dim × Except Err DArray) → Except Err Dset
  | d, [] => .ok d
  | _, (_, .error err) :: _ => .error err
  | d, (name, .ok a) :: rest =>
    match d.setDataArrayInit eq eqn name a with
    | (_, some err) => .error err
    | (d, none) => fill eq eqn d rest

/-- A dataset without sizes (`dataset.cpp` 41-45). -/
def invalidDset : Dset := ⟨⟨[], [], false⟩, [], false, false⟩

/-- `or_empty` (`dataset.h` 227-231). -/
def orEmpty (d : Dset) : Dset := if d.valid then d else ⟨⟨[], [], false⟩, [], false, true⟩

/-- `apply_with_broadcast(op, Dataset, Dataset)` (`arithmetic.cpp` 84-91). -/
def BinaryOp.datasets (op : BinaryOp) (a b : Dset) : Except Err Dset := do
  let common := b.items.filter fun p => (lookupEntry a.items p.1).isSome
  let d ← fill op.eq op.eqn invalidDset (common.map fun p => (p.1, do op.arrays (← a.get p.1) (← b.get p.1)))
  return orEmpty d

/-- `apply_with_broadcast(op, Dataset, DataArray)` (`arithmetic.cpp` 93-99). -/
def BinaryOp.datasetArray (op : BinaryOp) (a : Dset) (b : DArray) : Except Err Dset := do
  let d ← fill op.eq op.eqn invalidDset (a.items.map fun p => (p.1, do op.arrays (← a.get p.1) b))
  return orEmpty d

/-- `apply_with_broadcast(op, DataArray, Dataset)` (`arithmetic.cpp` 101-107). -/
def BinaryOp.arrayDataset (op : BinaryOp) (a : DArray) (b : Dset) : Except Err Dset := do
  let d ← fill op.eq op.eqn invalidDset (b.items.map fun p => (p.1, do op.arrays a (← b.get p.1)))
  return orEmpty d

/-- `apply_with_broadcast(op, Dataset, Variable)` (`arithmetic.cpp` 109-115). -/
def BinaryOp.datasetVar (op : BinaryOp) (a : Dset) (b : Entry) : Except Err Dset := do
  let d ← fill op.eq op.eqn invalidDset (a.items.map fun p => (p.1, do op.arrayVar (← a.get p.1) b))
  return orEmpty d

/-- `apply_with_broadcast(op, Variable, Dataset)` (`arithmetic.cpp` 117-122). -/
def BinaryOp.varDataset (op : BinaryOp) (a : Entry) (b : Dset) : Except Err Dset := do
  let d ← fill op.eq op.eqn invalidDset (b.items.map fun p => (p.1, do op.varArray a (← b.get p.1)))
  return orEmpty d

/-- Comparison of data arrays (`data_array.cpp` 87-97). -/
def arrayEq (eq : Entry → Entry → Bool) (a b : DArray) : Bool :=
  coordDictEq eq a.coords b.coords && coordDictEq eq a.masks b.masks && coordDictEq eq a.attrs b.attrs && eq a.data b.data

/-- The items of a dataset as data arrays (`detail::make_item`, `dataset.h` 27-40). -/
def itemArrays (d : Dset) : List (Dim × DItem) → Except Err (List (Dim × DArray))
  | [] => .ok []
  | p :: rest => do
    let a ← d.get p.1
    let as ← itemArrays d rest
    return (p.1, a) :: as

/-- The second loop of `union_(Dataset, Dataset)` (`operations.cpp` 25-30): the items of `b` that `a` does not have. `throw_mismatch_error` for data arrays throws a `DataArrayError`. -/
def newItems (eq : Entry → Entry → Bool) (a : List (Dim × DArray)) : List (Dim × DArray) → Except Err (List (Dim × DArray))
  | [] => .ok []
  | (name, y) :: rest =>
    match lookupEntry a name with
    | some x => if arrayEq eq y x then newItems eq a rest else .error .dataArray
    | none => do
      let r ← newItems eq a rest
      return (name, y) :: r

/-- The loop of the constructor of `Dataset` over coords (`dataset.h` 74-76). -/
def setCoords : Dset → List (Dim × Entry) → Except Err Dset
  | d, [] => .ok d
  | d, (k, e) :: rest =>
    match d.setCoord k e with
    | (_, some err) => .error err
    | (d, none) => setCoords d rest

/-- The loop of the constructor of `Dataset` over items (`dataset.h` 78-86). -/
def setItems (eq eqn : Entry → Entry → Bool) : Dset → List (Dim × DArray) → Except Err Dset
  | d, [] => .ok d
  | d, (name, a) :: rest =>
    match d.setDataArray eq eqn name a with
    | (_, some err) => .error err
    | (d, none) => setItems eq eqn d rest

/-- The constructor of `Dataset` from items and coords (`dataset.h` 62-88). -/
def makeDataset (eq eqn : Entry → Entry → Bool) (items : List (Dim × DArray)) (coords : List (Dim × Entry)) : Except Err Dset :=
  match items with
  | [] => do
    let c ← SizedDict.ofItemsAuto coords false
    return ⟨c, [], false, true⟩
  | (_, a) :: _ => do
    let d ← setCoords ⟨⟨a.data.dims, [], false⟩, [], false, true⟩ coords
    setItems eq eqn d items

/-- `merge` (`operations.cpp` 20-36). `order` is the order of the names in a `std::map`. The arguments of the constructor are evaluated in an order that is not specified; only the kind of error depends on it. -/
def merge (eq eqn : Entry → Entry → Bool) (order : List (Dim × DArray) → List (Dim × DArray)) (a b : Dset) : Except Err Dset := do
  let x ← itemArrays a a.items
  let y ← itemArrays b b.items
  let new ← newItems eq x y
  let coords ← union_ eqn a.coords.items b.coords.items
  makeDataset eq eqn (order (x ++ new)) coords

end Scipp.DatasetOps
