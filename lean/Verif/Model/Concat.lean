import Verif.Model.Masks
/-
Concatenation: `concat` of variables (`lib/variable/shape.cpp`) and of data arrays (`lib/dataset/shape.cpp`).
Variables are represented by content (`Verif.Model.Arr`). For binned data the elements are the contents of the bins; the output
has bins of the right sizes because it is created from the concatenated bin sizes (`shape.cpp` 61-63).
-/
namespace Scipp.Concat
open Scipp

/-- A variable by content with its unit and its kind (`lib/variable/include/scipp/variable/variable.h`). The kind stands for dtype and
presence of variances. -/
structure CVar (V : Type) where
  arr : Arr V
  unit : Nat
  kind : Nat

/-- Dims of a variable. -/
abbrev CVar.dims {V : Type} (x : CVar V) : Dims := x.arr.dims

variable {V : Type}

/-- `Variable::broadcast` (`lib/variable/variable.cpp` 238-247), by content. -/
def CVar.broadcast (x : CVar V) (dims : Dims) : Except Err (CVar V) :=
  if Sizes.includes dims x.dims = false then .error .dimension else .ok { x with arr := ⟨dims, x.arr.val⟩ }

/-- `dims` before the loop of `concat` (`lib/variable/shape.cpp` 39-51). -/
def expandedDims (vars : List (CVar V)) (front : CVar V) (dim : Dim) : Except Err Dims :=
  match vars.find? (fun x => Sizes.contains x.dims dim) with
  | none => Dims.add front.dims dim 1
  | some x => Sizes.resize x.dims dim 1

/-- Body of the loop of `concat` that expands inputs (`shape.cpp` 54-60). -/
def expand (dims : Dims) (dim : Dim) (x : CVar V) : Except Err (CVar V) :=
  if Sizes.contains x.dims dim then .ok x else x.broadcast dims

/-- Sum of the extents (`shape.cpp` 53, 59). -/
def totalSize (dim : Dim) : List (CVar V) → Except Err Int
  | [] => .ok 0
  | x :: xs =>
    match Sizes.at? x.dims dim with
    | .error e => .error e
    | .ok n =>
      match totalSize dim xs with
      | .error e => .error e
      | .ok m => .ok (n + m)

/-- `expect_can_set_unit` for the slice of `out` starting at `offset` (`lib/variable/variable.cpp` 108-112, 285-288): the unit can be
changed only if the slice covers everything. The buffer offset of the slice is `offset` times the stride. -/
def canSetUnit (out : Dims) (slice : Dims) (dim : Dim) (offset : Int) : Except Err Bool :=
  match Dims.offset out dim with
  | .error e => .error e
  | .ok stride => .ok (offset * stride == 0 && Dims.volume slice == Dims.volume out)

/-- `out.data().copy(var, out.slice({dim, offset, offset + extent}))` (`shape.cpp` 69-71): `transform_in_place` with the operation `copy`
(`lib/variable/include/scipp/variable/element_array_model.h` 144-150). The dims of the source must be dims of the slice; the unit of
the slice becomes that of the source; the dtypes must be the same, and so must the presence of variances. -/
def copySlice (dim : Dim) (st : CVar V × Int) (x : CVar V) : Except Err (CVar V × Int) :=
  match Sizes.at? x.dims dim with
  | .error e => .error e
  | .ok extent =>
    match Slice.range dim st.2 (st.2 + extent) with
    | .error e => .error e
    | .ok p =>
      match Sizes.slice st.1.dims p with
      | .error e => .error e
      | .ok sdims =>
        match canSetUnit st.1.dims sdims dim st.2 with
        | .error e => .error e
        | .ok can =>
          if Sizes.includes sdims x.dims = false then .error .dimension
          else if st.1.unit ≠ x.unit ∧ can = false then .error .unit
          else if st.1.kind ≠ x.kind then .error .dtype
          else .ok (⟨⟨st.1.dims, fun c => if st.2 ≤ c dim ∧ c dim < st.2 + extent then x.arr.val (upd c dim (c dim - st.2))
                      else st.1.arr.val c⟩, x.unit, st.1.kind⟩, st.2 + extent)

/-- `concat(span<Variable>, Dim)` (`shape.cpp` 36-75). The elements of `empty_like` are not initialised: `junk`. -/
def concat (junk : V) (vars : List (CVar V)) (dim : Dim) : Except Err (CVar V) :=
  match vars with
  | [] => .error .invalidArgument
  | front :: _ =>
    match expandedDims vars front dim with
    | .error e => .error e
    | .ok dims =>
      match vars.mapM (expand dims dim) with
      | .error e => .error e
      | .ok tmp =>
        match totalSize dim tmp with
        | .error e => .error e
        | .ok size =>
          match Sizes.resize dims dim size with
          | .error e => .error e
          | .ok dims =>
            match tmp.foldlM (copySlice dim) (⟨⟨dims, fun _ => junk⟩, front.unit, front.kind⟩, 0) with
            | .error e => .error e
            | .ok r => .ok r.1

/-! ### Data arrays -/

/-- `Variable::slice` at a point or over a range (`lib/variable/variable.cpp` 185-204), by content (C04). -/
def CVar.slice (x : CVar V) (p : Slice) : Except Err (CVar V) :=
  match Sizes.slice x.dims p with
  | .error e => .error e
  | .ok dims =>
    if p.stop = -1 then .ok { x with arr := ⟨dims, fun c => x.arr.val (upd c p.dim p.start)⟩ }
    else .ok { x with arr := ⟨dims, fun c => x.arr.val (upd c p.dim (p.start + c p.dim * p.stride))⟩ }

/-- `compare` (`lib/variable/variable.cpp` 128-147, see `Verif.Model.Equality`) by content, given the comparison of elements. The
shortcut for identical variables in `equals_nan` does not matter because equality of elements including NaN is reflexive. -/
def CVar.equal (eq : V → V → Bool) (x y : CVar V) : Bool :=
  decide (x.unit = y.unit) && decide (x.dims = y.dims) && decide (x.kind = y.kind) &&
    (List.range (Dims.volume x.dims).toNat).all (fun k => eq (x.arr.val (coordsOf x.dims k)) (y.arr.val (coordsOf x.dims k)))

/-- Comparison of elements by `==`: NaN is not equal to anything. Elements are identified up to the representation of NaN and
zero. -/
def elemEq [DecidableEq V] (isnan : V → Bool) (x y : V) : Bool := decide (x = y) && !isnan x

/-- Comparison of elements by `equals_nan`. -/
def elemEqNan [DecidableEq V] (x y : V) : Bool := decide (x = y)

/-- `tmp.back().slice({dim, tmp.back().dims()[dim] - 1})` (`lib/dataset/shape.cpp` 40). -/
def lastSlice (x : CVar V) (dim : Dim) : Except Err (CVar V) :=
  match Sizes.at? x.dims dim with
  | .error e => .error e
  | .ok n =>
    match Slice.point dim (n - 1) with
    | .error e => .error e
    | .ok p => x.slice p

/-- `var.slice({dim, 0})` (`lib/dataset/shape.cpp` 41). -/
def firstSlice (x : CVar V) (dim : Dim) : Except Err (CVar V) := x.slice ⟨dim, 0, -1, 1⟩

/-- `var.slice({dim, 1, var.dims()[dim]})` (`lib/dataset/shape.cpp` 42). -/
def tailSlice (x : CVar V) (dim : Dim) : Except Err (CVar V) :=
  match Sizes.at? x.dims dim with
  | .error e => .error e
  | .ok n =>
    match Slice.range dim 1 n with
    | .error e => .error e
    | .ok p => x.slice p

/-- Loop of `join_edges` (`lib/dataset/shape.cpp` 36-44) after the first iteration; `back` is `tmp.back()`. Returns the elements appended
to `tmp`. `expect::equals` (`lib/core/include/scipp/core/except.h` 109-113) throws if the arguments differ; which exception class is
thrown depends on the type, here `VariableError`. -/
def joinTail (eq : V → V → Bool) (dim : Dim) (back : CVar V) : List (CVar V) → Except Err (List (CVar V))
  | [] => .ok []
  | x :: xs =>
    match lastSlice back dim with
    | .error e => .error e
    | .ok l =>
      match firstSlice x dim with
      | .error e => .error e
      | .ok f =>
        if l.equal eq f = false then .error .variable
        else
          match tailSlice x dim with
          | .error e => .error e
          | .ok t =>
            match joinTail eq dim t xs with
            | .error e => .error e
            | .ok ts => .ok (t :: ts)

/-- `join_edges` (`lib/dataset/shape.cpp` 33-46). -/
def joinEdges (junk : V) (eq : V → V → Bool) (vars : List (CVar V)) (dim : Dim) : Except Err (CVar V) :=
  match vars with
  | [] => concat junk [] dim
  | x :: xs =>
    match joinTail eq dim x xs with
    | .error e => .error e
    | .ok ts => concat junk (x :: ts) dim

/-- Coords or masks: sizes of the data and items (`lib/dataset/include/scipp/dataset/sized_dict.h`). `dimKeys` tells whether the keys are
dims (coords) or strings (masks). -/
structure CMap (V : Type) where
  sizes : Sizes
  items : List (Dim × CVar V)
  dimKeys : Bool := true

/-- `SizedDict::dim_of` (`lib/dataset/sized_dict.cpp` 185-199). -/
def CMap.dimOf (m : CMap V) (key : Dim) (x : CVar V) : Dim :=
  if x.dims.length = 0 then Dim.invalid
  else if x.dims.length = 1 then Dims.inner x.dims
  else if m.dimKeys then
    match (Sizes.labels x.dims).find? (fun d => Sizes.isEdges m.sizes x.dims d) with
    | some d => d
    | none => if Sizes.contains x.dims key then key else Dim.invalid
  else Dim.invalid

/-- `map[key]` (`lib/dataset/shape.cpp` 81, `sized_dict.cpp` `at`). -/
def CMap.get (key : Dim) (m : CMap V) : Except Err (CVar V) :=
  match lookupEntry m.items key with
  | none => .error .notFound
  | some x => .ok x

/-- `is_edges(map.sizes(), map[key].dims(), dim)` (`lib/dataset/shape.cpp` 52, 60). -/
def CMap.edges (dim : Dim) (p : CMap V × CVar V) : Bool := Sizes.isEdges p.1.sizes p.2.dims dim

/-- Extent of the data along `dim` as used in `broadcast_along_dim` (`lib/dataset/shape.cpp` 68-70). -/
def CMap.extent (m : CMap V) (dim : Dim) : Int :=
  match Sizes.at? m.sizes dim with
  | .ok n => n
  | .error _ => 1

/-- `broadcast_along_dim` for one of the inputs (`lib/dataset/shape.cpp` 65-73). -/
def broadcastAlong (dim : Dim) (p : CMap V × CVar V) : Except Err (CVar V) :=
  match Dims.addInner [] dim (p.1.extent dim) with
  | .error e => .error e
  | .ok d =>
    match Dims.merge d p.2.dims with
    | .error e => .error e
    | .ok dims => p.2.broadcast dims

/-- Body of the loop of `concat_maps` (`lib/dataset/shape.cpp` 80-108): the concatenated item. `equal_is_edges` compares neighbours. -/
def concatItem [DecidableEq V] (junk : V) (isnan : V → Bool) (maps : List (CMap V)) (a : CMap V) (dim key : Dim) (x : CVar V) :
    Except Err (CVar V) :=
  match maps.mapM (CMap.get key) with
  | .error e => .error e
  | .ok vars =>
    if a.dimOf key x = dim then
      if (List.zip maps vars).all (CMap.edges dim) then joinEdges junk (elemEq isnan) vars dim
      else if (List.zip maps vars).any (CMap.edges dim) then .error .binEdge
      else concat junk vars dim
    else if vars.any (fun v => Sizes.contains v.dims dim || !(v.equal elemEqNan x)) then
      match (List.zip maps vars).mapM (broadcastAlong dim) with
      | .error e => .error e
      | .ok bs => concat junk bs dim
    else .ok x

/-- Loop of `concat_maps` (`lib/dataset/shape.cpp` 80-108). Keys are distinct, `insert_or_assign` appends. -/
def concatItems [DecidableEq V] (junk : V) (isnan : V → Bool) (maps : List (CMap V)) (a : CMap V) (dim : Dim) :
    List (Dim × CVar V) → Except Err (List (Dim × CVar V))
  | [] => .ok []
  | (key, x) :: rest =>
    match concatItem junk isnan maps a dim key x with
    | .error e => .error e
    | .ok y =>
      match concatItems junk isnan maps a dim rest with
      | .error e => .error e
      | .ok ys => .ok ((key, y) :: ys)

/-- `concat_maps` (`lib/dataset/shape.cpp` 75-110). -/
def concatMaps [DecidableEq V] (junk : V) (isnan : V → Bool) (maps : List (CMap V)) (dim : Dim) : Except Err (List (Dim × CVar V)) :=
  match maps with
  | [] => .error .invalidArgument
  | a :: _ => concatItems junk isnan maps a dim a.items

/-- A data array (`lib/dataset/include/scipp/dataset/data_array.h`): data, coords, masks. Attributes are treated like coords, alignment
flags and names are left out. Elements of data, coords and masks are taken from the same type. -/
structure CArray (V : Type) where
  data : CVar V
  coords : List (Dim × CVar V)
  masks : List (Dim × CVar V)

/-- `get_coords` (`lib/dataset/dataset_operations_common.h`). -/
def CArray.coordMap (a : CArray V) : CMap V := ⟨a.data.dims, a.coords, true⟩

/-- `get_masks` (`lib/dataset/dataset_operations_common.h`). -/
def CArray.maskMap (a : CArray V) : CMap V := ⟨a.data.dims, a.masks, false⟩

/-- Check in `SizedDict::set` that an item fits the data (`lib/dataset/sized_dict.cpp` 221-250, see `SizedDict.insert`). -/
def fitCheck (sizes : Sizes) (p : Dim × CVar V) : Except Err Unit :=
  match reduceEdges sizes (Sizes.labels p.2.dims) p.2.dims with
  | .error e => .error e
  | .ok dims => if Sizes.includes sizes dims then .ok () else .error .dimension

/-- `concat(span<DataArray>, Dim)` (`lib/dataset/shape.cpp` 114-129). -/
def concatArrays [DecidableEq V] (junk : V) (isnan : V → Bool) (das : List (CArray V)) (dim : Dim) : Except Err (CArray V) :=
  match concat junk (das.map CArray.data) dim with
  | .error e => .error e
  | .ok data =>
    match concatMaps junk isnan (das.map CArray.maskMap) dim with
    | .error e => .error e
    | .ok masks =>
      match masks.forM (fitCheck data.dims) with
      | .error e => .error e
      | .ok _ =>
        match concatMaps junk isnan (das.map CArray.coordMap) dim with
        | .error e => .error e
        | .ok coords =>
          match coords.forM (fitCheck data.dims) with
          | .error e => .error e
          | .ok _ => .ok ⟨data, coords, masks⟩

end Scipp.Concat
