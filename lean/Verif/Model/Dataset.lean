import Verif.Model.SizedDict
/-
Model of `Dataset` as a container: `lib/dataset/dataset.cpp`, `lib/dataset/include/scipp/dataset/dataset.h`. Names of items are represented like
keys of dictionaries. Functions that modify a dataset return the state after the call also if they throw: `(state, exception)`.
-/
namespace Scipp

/-- A data array in a dataset (`m_data`): it has no coords of its own, except for those of the dataset (`dataset.h` 19-25). -/
structure DItem where
  data : Entry
  masks : SizedDict
  attrs : SizedDict
  deriving DecidableEq

/-- A `DataArray` with its members `m_data`, `m_coords`, `m_masks`, `m_attrs` (`lib/dataset/include/scipp/dataset/data_array.h`). -/
structure DArray where
  data : Entry
  coords : SizedDict
  masks : SizedDict
  attrs : SizedDict
  deriving DecidableEq

/-- `Dataset` with its members `m_coords`, `m_data`, `m_readonly`, `m_valid` (`dataset.h` 236-241). -/
structure Dset where
  coords : SizedDict
  items : List (Dim × DItem)
  readonly : Bool := false
  valid : Bool := true
  deriving DecidableEq

/-- State after a call and the exception, if any was thrown. -/
abbrev DsetStep := Dset × Option Err

/-- `expect_writable` and `expect_valid` (`dataset.cpp` 15-27). -/
def Dset.expectUsable (d : Dset) : Option Err :=
  if d.readonly then some .dataset else if d.valid = false then some .dataset else none

/-- `Dataset::setCoord` (`dataset.cpp` 133-137). -/
def Dset.setCoord (d : Dset) (key : Dim) (e : Entry) : DsetStep :=
  match d.expectUsable with
  | some err => (d, some err)
  | none =>
    match d.coords.set key e with
    | .error err => (d, some err)
    | .ok c => ({ d with coords := c }, none)

/-- The new item in `Dataset::setData(name, Variable)` (`dataset.cpp` 149-155): if an item is replaced and `AttrPolicy::Keep` is given, masks
and attrs are those of the old item, checked against the new data by the constructor (`data_array.cpp` 46-54). -/
def Dset.newItem (d : Dset) (name : Dim) (data : Entry) (keep : Bool) : Except Err DItem :=
  match lookupEntry d.items name, keep with
  | some it, true =>
    match SizedDict.ofItems data.dims it.masks.items false with
    | .error err => .error err
    | .ok masks =>
      match SizedDict.ofItems data.dims it.attrs.items false with
      | .error err => .error err
      | .ok attrs => .ok ⟨data, masks, attrs⟩
  | _, _ => .ok ⟨data, ⟨data.dims, [], false⟩, ⟨data.dims, [], false⟩⟩

/-- `Dataset::setData(name, Variable, AttrPolicy)` (`dataset.cpp` 144-156), with `expect_matching_item_dims` (29-38). The comparison of sizes does
not depend on the order. -/
def Dset.setData (d : Dset) (name : Dim) (data : Entry) (keep : Bool) : DsetStep :=
  match d.expectUsable with
  | some err => (d, some err)
  | none =>
    if Sizes.eqMap d.coords.sizes data.dims = false then (d, some .dimension)
    else
      match d.newItem name data keep with
      | .error err => (d, some err)
      | .ok it => ({ d with items := insertEntry d.items name it }, none)

/-- Loop of `coords_to_skip` (`dataset.cpp` 169-181). `eqn` is `equals_nan`. `CoordMismatchError` is a `DatasetError`. -/
def coordsToSkip (eqn : Entry → Entry → Bool) (dst : List (Dim × Entry)) : List (Dim × Entry) → Except Err (List Dim)
  | [] => .ok []
  | (k, e) :: rest =>
    match lookupEntry dst k with
    | none => coordsToSkip eqn dst rest
    | some cur =>
      if cur.aligned = e.aligned then
        if eqn e cur then coordsToSkip eqn dst rest else .error .dataset
      else
        match coordsToSkip eqn dst rest with
        | .error err => .error err
        | .ok skip => .ok (if cur.aligned then k :: skip else skip)

/-- `SizedDict::item_applies_to` (`sized_dict.cpp` 402-408). -/
def itemAppliesTo (dims : Dims) (p : Dim × Entry) : Bool := (Sizes.labels p.2.dims).all (fun x => Sizes.contains dims x)

/-- Coords of `DataArray::view_with_coords` (`data_array.cpp` 163-182). -/
def viewCoords (coords : SizedDict) (dims : Dims) : Except Err SizedDict :=
  SizedDict.ofItems dims ((coords.items.filter (itemAppliesTo dims)).map (fun p => (p.1, { p.2 with view := p.2.view.asConst }))) true

/-- `Dataset::operator[]`, `find` (`dataset.h` 105-110, `dataset.cpp` 127-130). -/
def Dset.get (d : Dset) (name : Dim) : Except Err DArray :=
  match lookupEntry d.items name with
  | none => .error .notFound
  | some it =>
    match viewCoords d.coords it.data.dims with
    | .error err => .error err
    | .ok coords => .ok ⟨it.data, coords, it.masks, it.attrs⟩

/-- Comparison of dictionaries, `SizedDict::operator==` (`sized_dict.cpp` 98-119). `eq` is `==` for variables. -/
def coordDictEq (eq : Entry → Entry → Bool) (a b : SizedDict) : Bool :=
  a.items.length == b.items.length && a.items.all (fun p =>
    match lookupEntry b.items p.1 with
    | none => false
    | some e => eq p.2 e && p.2.aligned == e.aligned)

/-- The test for self-assignment in `Dataset::setData(name, DataArray)` (`dataset.cpp` 190-195). -/
def Dset.selfAssign (eq : Entry → Entry → Bool) (d : Dset) (name : Dim) (a : DArray) : Except Err Bool :=
  match lookupEntry d.items name with
  | none => .ok false
  | some _ =>
    match d.get name with
    | .error err => .error err
    | .ok it => .ok (it.data.isSame a.data && coordDictEq eq it.masks a.masks && coordDictEq eq it.attrs a.attrs && coordDictEq eq it.coords a.coords)

/-- Loop over the coords in `Dataset::setData(name, DataArray)` (`dataset.cpp` 200-203): stops at the first exception. -/
def Dset.setCoordsOf (skip : List Dim) : Dset → List (Dim × Entry) → DsetStep
  | d, [] => (d, none)
  | d, (k, e) :: rest =>
    match lookupEntry d.coords.items k with
    | some _ => Dset.setCoordsOf skip d rest
    | none =>
      if k ∈ skip then Dset.setCoordsOf skip d rest
      else
        match d.setCoord k e with
        | (d', none) => Dset.setCoordsOf skip d' rest
        | (d', some err) => (d', some err)

/-- `item.attrs() = data.attrs(); item.masks() = data.masks();` (`dataset.cpp` 207-208): all members are assigned, also `m_readonly`
(`sized_dict.cpp` 90-92). -/
def Dset.setMeta (d : Dset) (name : Dim) (a : DArray) : Dset :=
  match lookupEntry d.items name with
  | none => d
  | some it => { d with items := insertEntry d.items name { it with masks := a.masks, attrs := a.attrs } }

/-- `Dataset::setData(name, DataArray)` (`dataset.cpp` 189-209). -/
def Dset.setDataArray (eq eqn : Entry → Entry → Bool) (d : Dset) (name : Dim) (a : DArray) : DsetStep :=
  match d.selfAssign eq name a with
  | .error err => (d, some err)
  | .ok true => (d, none)
  | .ok false =>
    match coordsToSkip eqn d.coords.items a.coords.items with
    | .error err => (d, some err)
    | .ok skip =>
      match d.setData name a.data false with
      | (d1, some err) => (d1, some err)
      | (d1, none) =>
        match Dset.setCoordsOf skip d1 a.coords.items with
        | (d2, some err) => (d2, some err)
        | (d2, none) => (d2.setMeta name a, none)

/-- The first part of `setDataInit` (`dataset.cpp` 161-164, 222-225). -/
def Dset.initSizes (d : Dset) (dims : Dims) : DsetStep :=
  if d.valid then (d, none)
  else
    match d.coords.setSizes dims with
    | .error err => (d, some err)
    | .ok c => ({ d with coords := c, valid := true }, none)

/-- `Dataset::setDataInit(name, Variable, AttrPolicy)` (`dataset.cpp` 159-166). -/
def Dset.setDataInit (d : Dset) (name : Dim) (data : Entry) (keep : Bool) : DsetStep :=
  match d.initSizes data.dims with
  | (d1, some err) => (d1, some err)
  | (d1, none) => d1.setData name data keep

/-- `Dataset::setDataInit(name, DataArray)` (`dataset.cpp` 221-227). -/
def Dset.setDataArrayInit (eq eqn : Entry → Entry → Bool) (d : Dset) (name : Dim) (a : DArray) : DsetStep :=
  match d.initSizes a.data.dims with
  | (d1, some err) => (d1, some err)
  | (d1, none) => d1.setDataArray eq eqn name a

/-- `Dataset::erase` (`dataset.cpp` 111-115) and the erasing part of `extract` (120-124). -/
def Dset.erase (d : Dset) (name : Dim) : DsetStep :=
  if d.readonly then (d, some .dataset)
  else match lookupEntry d.items name with
    | none => (d, some .notFound)
    | some _ => ({ d with items := eraseEntry d.items name }, none)

/-- `Dataset::clear` (`dataset.cpp` 75-78). -/
def Dset.clear (d : Dset) : DsetStep := if d.readonly then (d, some .dataset) else ({ d with items := [] }, none)

/-- Operations on `ds.coords()` (`dataset.cpp` 88, `sized_dict.cpp` 221-262, 419-422). -/
def Dset.onCoords (d : Dset) (r : Except Err SizedDict) : DsetStep :=
  match r with
  | .error err => (d, some err)
  | .ok c => ({ d with coords := c }, none)

/-- Member functions that modify a dataset (`dataset.h` 94-190). -/
inductive DsetOp
  | setCoord (key : Dim) (e : Entry)
  | setData (name : Dim) (data : Entry) (keep : Bool)
  | setDataArray (name : Dim) (a : DArray)
  | setDataInit (name : Dim) (data : Entry) (keep : Bool)
  | setDataArrayInit (name : Dim) (a : DArray)
  | erase (name : Dim)
  | clear
  | coordsSet (key : Dim) (e : Entry)
  | coordsErase (key : Dim)
  | coordsSetAligned (key : Dim) (aligned : Bool)

/-- Apply an operation (`dataset.cpp`). -/
def DsetOp.apply (eq eqn : Entry → Entry → Bool) (d : Dset) : DsetOp → DsetStep
  | .setCoord k e => d.setCoord k e
  | .setData n x keep => d.setData n x keep
  | .setDataArray n a => d.setDataArray eq eqn n a
  | .setDataInit n x keep => d.setDataInit n x keep
  | .setDataArrayInit n a => d.setDataArrayInit eq eqn n a
  | .erase n => d.erase n
  | .clear => d.clear
  | .coordsSet k e => d.onCoords (d.coords.set k e)
  | .coordsErase k => d.onCoords (d.coords.erase k)
  | .coordsSetAligned k a => d.onCoords (d.coords.setAligned k a)

/-- A history: operations may throw, the dataset is used further (`dataset.cpp`). -/
def DsetOp.run (eq eqn : Entry → Entry → Bool) (d : Dset) : List DsetOp → Dset
  | [] => d
  | op :: ops => DsetOp.run eq eqn (op.apply eq eqn d).1 ops

end Scipp
