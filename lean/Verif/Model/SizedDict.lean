import Verif.Model.View
/-
Model of `SizedDict`, the dictionary behind coords and masks:
`lib/dataset/sized_dict.cpp`, `lib/dataset/include/scipp/dataset/sized_dict.h`.
Keys are dimension labels (coords); for masks the keys are strings, with no other difference except
for the last case of `dim_of`. The underlying insertion-ordered `core::Dict` (see `Verif.Model.Dict`)
is represented by a list of pairs.
-/
namespace Scipp

/-- A `Variable` in a dictionary: the view (dims, strides, offset, read-only flag), the object it refers to,
`is_aligned()` and `is_bins`. -/
structure Entry where
  view : View
  obj : Nat
  aligned : Bool := true
  binned : Bool := false
  deriving DecidableEq

/-- Dimensions of an entry. -/
abbrev Entry.dims (e : Entry) : Dims := e.view.dims

/-- `Variable::is_same` (`lib/variable/variable.cpp` 292-296): same object, dims, strides, offset. The
read-only flag is not compared. -/
def Entry.isSame (a b : Entry) : Bool :=
  a.obj == b.obj && decide (a.view.dims = b.view.dims) && decide (a.view.strides = b.view.strides) &&
    decide (a.view.offset = b.view.offset)

/-- `SizedDict` with its members `m_sizes`, `m_items`, `m_readonly` (`sized_dict.h`). -/
structure SizedDict where
  sizes : Sizes
  items : List (Dim × Entry)
  readonly : Bool := false
  deriving DecidableEq

/-- `Dict::find` (`lib/core/include/scipp/core/dict.h`): the entry of a key. -/
def lookupEntry {α : Type} (items : List (Dim × α)) (key : Dim) : Option α :=
  match items with
  | [] => none
  | (k, e) :: rest => if k = key then some e else lookupEntry rest key

/-- `Dict::insert_or_assign` (`dict.h` 276-283). -/
def insertEntry {α : Type} (items : List (Dim × α)) (key : Dim) (e : α) : List (Dim × α) :=
  match items with
  | [] => [(key, e)]
  | (k, x) :: rest => if k = key then (k, e) :: rest else (k, x) :: insertEntry rest key e

/-- Removal by `Dict::extract` (`dict.h` 287-294). -/
def eraseEntry {α : Type} (items : List (Dim × α)) (key : Dim) : List (Dim × α) :=
  match items with
  | [] => []
  | (k, x) :: rest => if k = key then rest else (k, x) :: eraseEntry rest key

/-- Loop of `SizedDict::set` over the dimensions of the coord (`sized_dict.cpp` 239-247). First argument of the
recursion: labels still to be visited. `sizes()[dim]` throws if there is no such dim. -/
def reduceEdges (sizes : Sizes) : List Dim → Dims → Except Err Dims
  | [], dims => .ok dims
  | d :: ds, dims =>
    match Sizes.at? dims d with
    | .error e => .error e
    | .ok n =>
      if Sizes.contains sizes d = false ∧ n = 2 then Sizes.erase dims d
      else
        match Sizes.at? sizes d with
        | .error e => .error e
        | .ok m => if n = m + 1 then Sizes.resize dims d m else reduceEdges sizes ds dims

/-- `SizedDict::set` after the first `if` (`sized_dict.cpp` 224-249), with `expect_writable` (15-19) and
`expect_valid_coord_dims` (209-217). -/
def SizedDict.insert (d : SizedDict) (key : Dim) (e : Entry) : Except Err SizedDict :=
  if d.readonly then .error .dataArray
  else if e.binned then .error .variable
  else
    match reduceEdges d.sizes (Sizes.labels e.dims) e.dims with
    | .error err => .error err
    | .ok dims =>
      if Sizes.includes d.sizes dims then .ok { d with items := insertEntry d.items key e }
      else .error .dimension

/-- `SizedDict::set` (`sized_dict.cpp` 221-250). -/
def SizedDict.set (d : SizedDict) (key : Dim) (e : Entry) : Except Err SizedDict :=
  match lookupEntry d.items key with
  | some cur => if cur.isSame e then .ok d else d.insert key e
  | none => d.insert key e

/-- `SizedDict::extract`, `erase` (`sized_dict.cpp` 253-262): the remaining dictionary. -/
def SizedDict.erase (d : SizedDict) (key : Dim) : Except Err SizedDict :=
  if d.readonly then .error .dataArray
  else match lookupEntry d.items key with
    | none => .error .notFound
    | some _ => .ok { d with items := eraseEntry d.items key }

/-- `SizedDict::set_aligned` (`sized_dict.cpp` 419-422). -/
def SizedDict.setAligned (d : SizedDict) (key : Dim) (aligned : Bool) : Except Err SizedDict :=
  if d.readonly then .error .dataArray
  else match lookupEntry d.items key with
    | none => .error .notFound
    | some e => .ok { d with items := insertEntry d.items key { e with aligned } }

/-- `SizedDict::setSizes` (`sized_dict.cpp` 202-205). -/
def SizedDict.setSizes (d : SizedDict) (sizes : Sizes) : Except Err SizedDict :=
  if Sizes.includes sizes d.sizes then .ok { d with sizes } else .error .dimension

/-- Body of the loop in the constructor (`sized_dict.cpp` 70-71). -/
def SizedDict.setItem (d : SizedDict) (p : Dim × Entry) : Except Err SizedDict := d.set p.1 p.2

/-- Constructor from sizes and items (`sized_dict.cpp` 67-74). -/
def SizedDict.ofItems (sizes : Sizes) (items : List (Dim × Entry)) (readonly : Bool) : Except Err SizedDict :=
  match items.foldlM SizedDict.setItem ⟨sizes, [], false⟩ with
  | .error e => .error e
  | .ok d => .ok { d with readonly }

/-- Loop of `merge_sizes_into` (`sized_dict.cpp` 21-40) over the dimensions of an item. -/
def mergeSizesInto : Sizes → Dims → Except Err Sizes
  | target, [] => .ok target
  | target, (d, b) :: rest =>
    if Sizes.contains target d then
      match Sizes.at? target d with
      | .error e => .error e
      | .ok a =>
        if a = b + 1 then
          match Sizes.resize target d b with
          | .error e => .error e
          | .ok t => mergeSizesInto t rest
        else if a + 1 = b ∨ a = b then mergeSizesInto target rest
        else .error .dimension
    else
      match Sizes.set target d b with
      | .error e => .error e
      | .ok t => mergeSizesInto t rest

/-- Body of the loop of `make_from_items` (`sized_dict.cpp` 46-48). -/
def mergeItemSizes (target : Sizes) (p : Dim × Entry) : Except Err Sizes := mergeSizesInto target p.2.dims

/-- `make_from_items` and the constructor with `AutoSizeTag` (`sized_dict.cpp` 42-50, 76-79). -/
def SizedDict.ofItemsAuto (items : List (Dim × Entry)) (readonly : Bool) : Except Err SizedDict :=
  match items.foldlM mergeItemSizes [] with
  | .error e => .error e
  | .ok sizes => SizedDict.ofItems sizes items readonly

/-- The slice applied to a bin-edge coord by `slice_map` (`sized_dict.h` 25-33). -/
def edgeSlice (p : Slice) : Except Err Slice :=
  if p.stride ≠ 1 then .error .slice
  else Slice.range p.dim p.start
    (if p.stop = -1 then p.start + 2 else if p.start = p.stop then p.stop else p.stop + 1)

/-- `slice_map` for one entry (`sized_dict.h` 20-39). -/
def sliceEntry (sizes : Sizes) (p : Slice) (e : Entry) : Except Err Entry :=
  if Sizes.contains e.dims p.dim then
    match Sizes.at? e.dims p.dim, Sizes.at? sizes p.dim with
    | .ok n, .ok m =>
      match (if n = m then .ok p else edgeSlice p) with
      | .error err => .error err
      | .ok q => match e.view.slice q with
        | .error err => .error err
        | .ok view => .ok { e with view }
    | .error err, _ => .error err
    | _, .error err => .error err
  else if p = Slice.none then .ok e
  else .ok { e with view := e.view.asConst }

/-- `slice_map` (`sized_dict.h` 17-43). -/
def sliceMap (sizes : Sizes) (p : Slice) : List (Dim × Entry) → Except Err (List (Dim × Entry))
  | [] => .ok []
  | (k, e) :: rest =>
    match sliceEntry sizes p e with
    | .error err => .error err
    | .ok e' => match sliceMap sizes p rest with
      | .error err => .error err
      | .ok rest' => .ok ((k, e') :: rest')

/-- `SizedDict::slice` (`sized_dict.cpp` 273-276). -/
def SizedDict.slice (d : SizedDict) (p : Slice) : Except Err SizedDict :=
  match Sizes.slice d.sizes p with
  | .error e => .error e
  | .ok sizes => match sliceMap d.sizes p d.items with
    | .error e => .error e
    | .ok items => SizedDict.ofItems sizes items true

/-- `SizedDict::dim_of` (`sized_dict.cpp` 185-199). -/
def SizedDict.dimOf (d : SizedDict) (key : Dim) (e : Entry) : Dim :=
  if e.dims.length = 0 then Dim.invalid
  else if e.dims.length = 1 then Dims.inner e.dims
  else match (Sizes.labels e.dims).find? (fun x => Sizes.isEdges d.sizes e.dims x) with
    | some x => x
    | none => if Sizes.contains e.dims key then key else Dim.invalid

/-- `unaligned_by_dim_slice` (`sized_dict.cpp` 279-287). -/
def SizedDict.unalignedBySlice (d : SizedDict) (p : Slice) (key : Dim) (e : Entry) : Bool :=
  if p = Slice.none ∨ p.stop ≠ -1 then false
  else Sizes.contains e.dims p.dim && decide (d.dimOf key e = p.dim)

/-- Body of the loop of `SizedDict::slice_coords` (`sized_dict.cpp` 295-297). -/
def SizedDict.alignStep (d : SizedDict) (p : Slice) (c : SizedDict) (q : Dim × Entry) : Except Err SizedDict :=
  if d.unalignedBySlice p q.1 q.2 then c.setAligned q.1 false else .ok c

/-- `SizedDict::slice_coords` (`sized_dict.cpp` 291-299). -/
def SizedDict.sliceCoords (d : SizedDict) (p : Slice) : Except Err SizedDict :=
  match d.slice p with
  | .error e => .error e
  | .ok s => match d.items.foldlM (d.alignStep p) { s with readonly := false } with
    | .error e => .error e
    | .ok c => .ok { c with readonly := true }

/-- Body of the loop of `SizedDict::rename_dims` (`sized_dict.cpp` 342-355). -/
def renameEntry (sizes : Sizes) (names : List (Dim × Dim)) (e : Entry) : Except Err Entry :=
  if names.any (fun r => !(Sizes.contains sizes r.2) && Sizes.contains e.dims r.2) then .error .dimension
  else match e.view.renameDims names false with
    | .error err => .error err
    | .ok view => .ok { e with view }

/-- The loop of `SizedDict::rename_dims` (`sized_dict.cpp` 342-355). -/
def renameMap (sizes : Sizes) (names : List (Dim × Dim)) : List (Dim × Entry) → Except Err (List (Dim × Entry))
  | [] => .ok []
  | (k, e) :: rest =>
    match renameEntry sizes names e with
    | .error err => .error err
    | .ok e' => match renameMap sizes names rest with
      | .error err => .error err
      | .ok rest' => .ok ((k, e') :: rest')

/-- `SizedDict::rename_dims` (`sized_dict.cpp` 337-357). The copy is not read-only (81-83). -/
def SizedDict.renameDims (d : SizedDict) (names : List (Dim × Dim)) (strict : Bool) : Except Err SizedDict :=
  match Sizes.renameDims d.sizes names strict with
  | .error e => .error e
  | .ok sizes => match renameMap d.sizes names d.items with
    | .error e => .error e
    | .ok items => .ok ⟨sizes, items, false⟩

/-- `SizedDict::as_const` (`sized_dict.cpp` 372-379). -/
def SizedDict.asConst (d : SizedDict) : Except Err SizedDict :=
  SizedDict.ofItems d.sizes (d.items.map (fun p => (p.1, { p.2 with view := p.2.view.asConst }))) true

/-- Body of the loop of `SizedDict::merge_from` (`sized_dict.cpp` 390-397). -/
def SizedDict.mergeStep (o : SizedDict) (p : Dim × Entry) : Except Err SizedDict :=
  match lookupEntry o.items p.1 with
  | some _ => .error .dataArray
  | none => o.set p.1 p.2

/-- `SizedDict::merge_from` (`sized_dict.cpp` 383-400). -/
def SizedDict.mergeFrom (d other : SizedDict) : Except Err SizedDict :=
  match other.items.foldlM SizedDict.mergeStep { d with readonly := false } with
  | .error e => .error e
  | .ok o => .ok { o with readonly := d.readonly }

/-- Member functions that yield a (new or modified) dictionary. -/
inductive SizedDictOp
  | set (key : Dim) (e : Entry)
  | erase (key : Dim)
  | setAligned (key : Dim) (aligned : Bool)
  | slice (p : Slice)
  | sliceCoords (p : Slice)
  | renameDims (names : List (Dim × Dim))
  | asConst
  | copy
  | mergeFrom (other : SizedDict)
  | setSizes (sizes : Sizes)

/-- Apply an operation (`sized_dict.cpp`); `rename_dims` is called with dims of the data, an unknown name is an error
already for the data (`lib/dataset/data_array.cpp` 209-215 evaluates `m_data->rename_dims(names, fail_on_unknown)`). -/
def SizedDictOp.apply (d : SizedDict) : SizedDictOp → Except Err SizedDict
  | .set k e => d.set k e
  | .erase k => d.erase k
  | .setAligned k a => d.setAligned k a
  | .slice p => d.slice p
  | .sliceCoords p => d.sliceCoords p
  | .renameDims names => d.renameDims names true
  | .asConst => d.asConst
  | .copy => .ok { d with readonly := false }
  | .mergeFrom o => d.mergeFrom o
  | .setSizes s => d.setSizes s

/-- A history in which every operation is applied to the result of the previous one; a failed operation leaves the
dictionary as it is (`sized_dict.cpp`: modifications are made in the last statement only). -/
def SizedDictOp.run (d : SizedDict) : List SizedDictOp → SizedDict
  | [] => d
  | op :: ops => match op.apply d with
    | .ok d' => SizedDictOp.run d' ops
    | .error _ => SizedDictOp.run d ops

/-- `union_` (`sized_dict.cpp` 425-456), first loop. -/
def unionLeft (a : List (Dim × Entry)) : List (Dim × Entry) := a.filter (fun p => p.2.aligned)

/-- `union_` (`sized_dict.cpp` 434-453), second loop. `eq` is `equals_nan`; `expect::matching_coord`
(`lib/dataset/except.cpp` 81-85) throws `CoordMismatchError`. -/
def unionStep (eq : Entry → Entry → Bool) (a : List (Dim × Entry)) (out : List (Dim × Entry)) (p : Dim × Entry) :
    Except Err (List (Dim × Entry)) :=
  match lookupEntry a p.1 with
  | some va =>
    if va.aligned && p.2.aligned then if eq va p.2 then .ok out else .error .dataset
    else if p.2.aligned then .ok (insertEntry out p.1 p.2)
    else if !va.aligned then if eq va p.2 then .ok (insertEntry out p.1 p.2) else .ok out
    else .ok out
  | none => if p.2.aligned then .ok (insertEntry out p.1 p.2) else .ok out

/-- `union_` (`sized_dict.cpp` 425-456). -/
def union_ (eq : Entry → Entry → Bool) (a b : List (Dim × Entry)) : Except Err (List (Dim × Entry)) :=
  b.foldlM (unionStep eq a) (unionLeft a)

/-- `intersection` (`sized_dict.cpp` 459-467). -/
def intersection_ (eq : Entry → Entry → Bool) (a b : List (Dim × Entry)) : List (Dim × Entry) :=
  a.filter (fun p => match lookupEntry b p.1 with
    | some e => eq e p.2
    | none => false)

end Scipp
