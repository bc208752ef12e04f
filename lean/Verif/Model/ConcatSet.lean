import Verif.Model.Concat
import Verif.Model.Dataset
/-
Concatenation of datasets, and attrs and alignment flags in concatenations of data arrays (`lib/dataset/shape.cpp` 114-147). Contents as in
`Verif.Model.Concat`.
-/
namespace Scipp.Concat
open Scipp
variable {V : Type}

/-- A data array with attrs and the flags `is_aligned()` of its coords by name (`lib/dataset/include/scipp/dataset/data_array.h`,
`lib/variable/variable.cpp` 298). The name of the array is left out. -/
structure FArray (V : Type) where
  data : CVar V
  coords : List (Dim × CVar V)
  aligned : Dim → Bool
  masks : List (Dim × CVar V)
  attrs : List (Dim × CVar V)

/-- Data, coords and masks. -/
def FArray.base (a : FArray V) : CArray V := ⟨a.data, a.coords, a.masks⟩

/-- `get_attrs` (`lib/dataset/include/scipp/dataset/sized_dict.h` 196). Keys of attrs are dims. -/
def FArray.attrMap (a : FArray V) : CMap V := ⟨a.data.dims, a.attrs, true⟩

/-- `Coords::contains` (`lib/dataset/sized_dict.cpp` 138-141). -/
def hasKey {T : Type} (items : List (Dim × T)) (key : Dim) : Bool := (lookupEntry items key).isSome

/-- `concat(span<DataArray>, Dim)` (`lib/dataset/shape.cpp` 114-129) with the flags set in lines 119-121 and the attrs, 124-126. -/
def concatFull [DecidableEq V] (junk : V) (isnan : V → Bool) (das : List (FArray V)) (dim : Dim) : Except Err (FArray V) :=
  match concatArrays junk isnan (das.map FArray.base) dim with
  | .error e => .error e
  | .ok r =>
    match concatMaps junk isnan (das.map FArray.attrMap) dim with
    | .error e => .error e
    | .ok attrs =>
      match attrs.forM (fitCheck r.data.dims) with
      | .error e => .error e
      | .ok _ => .ok ⟨r.data, r.coords, fun d => decide (d = dim) || das.any (fun a => hasKey a.coords d), r.masks, attrs⟩

/-- An item of a dataset: it has no coords of its own (`lib/dataset/include/scipp/dataset/dataset.h` 236-241). -/
structure FItem (V : Type) where
  data : CVar V
  masks : List (Dim × CVar V)
  attrs : List (Dim × CVar V)

/-- `Dataset` by content: `m_coords` with its sizes, `m_data`, `m_valid` (`dataset.h` 236-241). None of the functions below modifies its
arguments or returns a read-only dataset, so `m_readonly` is left out. -/
structure FSet (V : Type) where
  sizes : Sizes
  coords : List (Dim × CVar V)
  aligned : Dim → Bool
  items : List (Dim × FItem V)
  valid : Bool := true

/-- `SizedDict::item_applies_to` (`lib/dataset/sized_dict.cpp` 402-408). -/
def appliesTo (dims : Dims) (p : Dim × CVar V) : Bool := (Sizes.labels p.2.dims).all (fun x => Sizes.contains dims x)

/-- `DataArray::view_with_coords` (`lib/dataset/data_array.cpp` 165-182) for an item of a dataset. The constructor of `Coords` checks that
the selected coords fit, which coords of datasets do. -/
def FSet.view (s : FSet V) (it : FItem V) : FArray V := ⟨it.data, s.coords.filter (appliesTo it.data.dims), s.aligned, it.masks, it.attrs⟩

/-- `ds[name]` (`lib/dataset/dataset.cpp` 127-130). -/
def FSet.get (name : Dim) (s : FSet V) : Except Err (FArray V) :=
  match lookupEntry s.items name with
  | none => .error .notFound
  | some it => .ok (s.view it)

/-- `coords_to_skip` (`dataset.cpp` 169-181): throws `CoordMismatchError`, a `DatasetError`, if there is a coord of the same flag that is not
equal in the sense of `equals_nan` (`lib/dataset/except.cpp` 81-85). What is skipped is in the dataset already and would not be
replaced in any case (`dataset.cpp` 200-202). -/
def conflictCheck [DecidableEq V] (s : FSet V) (a : FArray V) : Except Err Unit :=
  a.coords.forM fun p =>
    match lookupEntry s.coords p.1 with
    | none => .ok ()
    | some x =>
      if s.aligned p.1 = a.aligned p.1 then if p.2.equal elemEqNan x then .ok () else .error .dataset else .ok ()

/-- Loop over the coords in `Dataset::setData(name, DataArray)` (`dataset.cpp` 200-203) with `setCoord` (133-137). -/
def addCoord (a : FArray V) (s : FSet V) (p : Dim × CVar V) : Except Err (FSet V) :=
  match lookupEntry s.coords p.1 with
  | some _ => .ok s
  | none =>
    match fitCheck s.sizes p with
    | .error e => .error e
    | .ok _ => .ok { s with coords := s.coords ++ [p], aligned := fun d => if d = p.1 then a.aligned d else s.aligned d }

/-- `Dataset::setData(name, DataArray)` (`dataset.cpp` 189-209) for a name that is not in the dataset. -/
def FSet.setArray [DecidableEq V] (s : FSet V) (name : Dim) (a : FArray V) : Except Err (FSet V) :=
  match conflictCheck s a with
  | .error e => .error e
  | .ok _ =>
    if Sizes.eqMap s.sizes a.data.dims = false then .error .dimension
    else
      match a.coords.foldlM (addCoord a) s with
      | .error e => .error e
      | .ok s' => .ok { s' with items := s'.items ++ [(name, ⟨a.data, a.masks, a.attrs⟩)] }

/-- `Dataset::setDataInit(name, DataArray)` (`dataset.cpp` 221-227) for a name that is not in the dataset. A dataset that is not valid has
no coords, so `setSizes` does not throw. -/
def FSet.setArrayInit [DecidableEq V] (s : FSet V) (name : Dim) (a : FArray V) : Except Err (FSet V) :=
  FSet.setArray (if s.valid then s else { s with sizes := a.data.dims, valid := true }) name a

/-- Body of the loop in `concat(span<Dataset>, Dim)` (`lib/dataset/shape.cpp` 135-140). Iteration over the first dataset gives its items
by name; names are distinct. -/
def concatStep [DecidableEq V] (junk : V) (isnan : V → Bool) (dss : List (FSet V)) (dim : Dim) (out : FSet V) (p : Dim × FItem V) :
    Except Err (FSet V) :=
  if dss.all (fun s => hasKey s.items p.1) then
    match dss.mapM (FSet.get p.1) with
    | .error e => .error e
    | .ok das =>
      match concatFull junk isnan das dim with
      | .error e => .error e
      | .ok a => out.setArrayInit p.1 a
  else .ok out

/-- `get_coords` for datasets (`sized_dict.h` 193-195). -/
def FSet.coordMap (s : FSet V) : CMap V := ⟨s.sizes, s.coords, true⟩

/-- Flag of an item of `concat_maps` (`lib/dataset/shape.cpp` 78-108): the concatenation creates a new variable, whose flag is set
(`lib/variable/shape.cpp` 61-67), otherwise the coord of the first input is returned (105). -/
def keptFlag [DecidableEq V] (dss : List (FSet V)) (a : FSet V) (dim key : Dim) : Bool :=
  match lookupEntry a.coords key with
  | none => true
  | some x =>
    if a.coordMap.dimOf key x = dim ∨
        (dss.any fun s => match lookupEntry s.coords key with
          | none => false
          | some v => Sizes.contains v.dims dim || !(v.equal elemEqNan x)) then true
    else a.aligned key

/-- The dataset of coords if there is no common item (`lib/dataset/shape.cpp` 143-144), with the checks of the constructor of `Coords`. -/
def concatCoords [DecidableEq V] (junk : V) (isnan : V → Bool) (dss : List (FSet V)) (a : FSet V) (dim : Dim) : Except Err (FSet V) :=
  match Sizes.concat (dss.map FSet.sizes) dim with
  | .error e => .error e
  | .ok sizes =>
    match concatMaps junk isnan (dss.map FSet.coordMap) dim with
    | .error e => .error e
    | .ok coords =>
      match coords.forM (fitCheck sizes) with
      | .error e => .error e
      | .ok _ => .ok ⟨sizes, coords, keptFlag dss a dim, [], true⟩

/-- `concat(span<Dataset>, Dim)` (`lib/dataset/shape.cpp` 131-145). -/
def concatSets [DecidableEq V] (junk : V) (isnan : V → Bool) (dss : List (FSet V)) (dim : Dim) : Except Err (FSet V) :=
  match dss with
  | [] => .error .invalidArgument
  | first :: _ =>
    match first.items.foldlM (concatStep junk isnan dss dim) ⟨[], [], fun _ => true, [], false⟩ with
    | .error e => .error e
    | .ok result => if result.valid then .ok result else concatCoords junk isnan dss first dim

end Scipp.Concat
