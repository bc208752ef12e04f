import Verif.Model.Arr
import Verif.Model.SizedDict
import Verif.Model.Transform
import Verif.Spec.View
/-
Masks: `union_or` and `union_or_in_place` (`lib/dataset/dataset.cpp`), and reductions of masked data
(`lib/dataset/variable_reduction.cpp`).
Masks are represented by content: that `union_or_in_place` modifies buffers which may be shared is the subject of
`Verif.Model.InPlace`.
-/
namespace Scipp

/-- A mask: content, whether its dtype is `bool`, whether its unit is `units::none`, and the read-only flag (set for masks of a
slice which do not depend on the slice dim). If `isBool` is false, the content is meaningless and never used. -/
structure MaskVar where
  arr : Arr Bool
  isBool : Bool := true
  unitNone : Bool := true
  readonly : Bool := false

/-- `copy(item)` (`lib/variable/operations.cpp` 20-24). -/
def MaskVar.copy (m : MaskVar) : MaskVar := { m with readonly := false }

/-- `a | b` (`logical_or`, `lib/core/include/scipp/core/element/logical.h` 24-33): bool operands without unit. Which of
several errors is reported first is not modelled faithfully. -/
def MaskVar.or (a b : MaskVar) : Except Err MaskVar :=
  if !a.isBool || !b.isBool then .error .dtype
  else if !a.unitNone || !b.unitNone then .error .unit
  else
    match Arr.zip (fun x y => x || y) a.arr b.arr with
    | .error e => .error e
    | .ok arr => .ok ⟨arr, true, true, false⟩

/-- `a |= b` (`logical_or_equals`, `logical.h` 39-48) through `transform_in_place`: the dims of `b` must be dims of
`a`. -/
def MaskVar.orInPlace (a b : MaskVar) : Except Err MaskVar :=
  if a.readonly then .error .variable
  else if !a.isBool || !b.isBool then .error .dtype
  else if !a.unitNone || !b.unitNone then .error .unit
  else if Sizes.includes a.arr.dims b.arr.dims then
    .ok { a with arr := ⟨a.arr.dims, fun c => a.arr.val c || b.arr.val c⟩ }
  else .error .dimension

/-- The combination of masks of the same name in `union_or` (`lib/dataset/dataset.cpp` 323-335). `m` is `out[key]`. -/
def unionOrCombine (m item : MaskVar) : Except Err MaskVar :=
  if !item.isBool || !m.isBool then .error .dtype
  else if !item.unitNone || !m.unitNone then .error .unit
  else if Sizes.includes m.arr.dims item.arr.dims then m.orInPlace item
  else m.or item

/-- Body of the second loop of `union_or` (`dataset.cpp` 320-336). The lookup in `out` cannot fail, `out` contains all keys
of `current`. -/
def unionOrStep (current out : List (Dim × MaskVar)) (p : Dim × MaskVar) : Except Err (List (Dim × MaskVar)) :=
  match lookupEntry current p.1 with
  | none => .ok (insertEntry out p.1 p.2.copy)
  | some _ =>
    match lookupEntry out p.1 with
    | none => .error .notFound
    | some m =>
      match unionOrCombine m p.2 with
      | .error e => .error e
      | .ok r => .ok (insertEntry out p.1 r)

/-- `union_or` (`dataset.cpp` 314-338). -/
def unionOr (current other : List (Dim × MaskVar)) : Except Err (List (Dim × MaskVar)) :=
  other.foldlM (unionOrStep current) (current.foldl (fun out p => insertEntry out p.1 p.2.copy) [])

/-- `Masks` of a data array: sizes, items and the read-only flag of the dictionary (`lib/dataset/include/scipp/dataset/sized_dict.h`). -/
structure MaskDict where
  sizes : Sizes
  items : List (Dim × MaskVar)
  readonly : Bool := false

/-- `SizedDict::set` of a new item (`lib/dataset/sized_dict.cpp` 221-250, see `SizedDict.insert`). -/
def MaskDict.set (d : MaskDict) (key : Dim) (m : MaskVar) : Except Err MaskDict :=
  if d.readonly then .error .dataArray
  else
    match reduceEdges d.sizes (Sizes.labels m.arr.dims) m.arr.dims with
    | .error err => .error err
    | .ok dims =>
      if Sizes.includes d.sizes dims then .ok { d with items := insertEntry d.items key m } else .error .dimension

/-- `it->second != (it->second | item)` (`dataset.cpp` 351), comparing dims and all elements. -/
def MaskVar.changedBy (m item : MaskVar) : Except Err Bool :=
  match m.or item with
  | .error e => .error e
  | .ok r => .ok (!(decide (m.arr.dims = r.arr.dims) &&
      (List.range (Dims.volume m.arr.dims).toNat).all
        (fun k => m.arr.val (coordsOf m.arr.dims k) == r.arr.val (coordsOf m.arr.dims k))))

/-- Second condition in the first loop (`dataset.cpp` 350-354). -/
def checkReadonly (m item : MaskVar) : Except Err Unit :=
  if m.readonly then
    match m.changedBy item with
    | .error e => .error e
    | .ok true => .error .dimension
    | .ok false => .ok ()
  else .ok ()

/-- Body of the first loop of `union_or_in_place` (`dataset.cpp` 344-365). -/
def unionOrInPlaceCheck (current : MaskDict) (p : Dim × MaskVar) : Except Err Unit :=
  match lookupEntry current.items p.1 with
  | none => if current.readonly then .error .notFound else .ok ()
  | some m =>
    match checkReadonly m p.2 with
    | .error e => .error e
    | .ok _ =>
      if !p.2.isBool || !m.isBool then .error .dtype
      else if !p.2.unitNone || !m.unitNone then .error .unit
      else .ok ()

/-- Body of the second loop of `union_or_in_place` (`dataset.cpp` 367-374). -/
def unionOrInPlaceStep (current : MaskDict) (p : Dim × MaskVar) : Except Err MaskDict :=
  match lookupEntry current.items p.1 with
  | none => current.set p.1 p.2.copy
  | some m =>
    if m.readonly then .ok current
    else
      match m.orInPlace p.2 with
      | .error e => .error e
      | .ok r => .ok { current with items := insertEntry current.items p.1 r }

/-- `union_or_in_place` (`dataset.cpp` 340-375) as called by in-place operations (`lib/templates/dataset_inplace.cpp.in`
16-29). The state in case of an exception is not represented here (see `Verif.Model.InPlace`). -/
def unionOrMasksInPlace (current : MaskDict) (other : List (Dim × MaskVar)) : Except Err MaskDict :=
  match other.forM (unionOrInPlaceCheck current) with
  | .error e => .error e
  | .ok _ => other.foldlM unionOrInPlaceStep current

/-! ### Reductions -/

/-- Body of the loop of `irreducible_mask` (`lib/dataset/include/scipp/dataset/sized_dict.h` 168-174). -/
def irreducibleStep (dim : Dim) (u : Option MaskVar) (p : Dim × MaskVar) : Except Err (Option MaskVar) :=
  if Sizes.contains p.2.arr.dims dim then
    match u with
    | none => .ok (some p.2.copy)
    | some m =>
      match m.or p.2 with
      | .error e => .error e
      | .ok r => .ok (some r)
  else .ok u

/-- `irreducible_mask` (`sized_dict.h` 162-174): union of the masks depending on `dim`; `none` is the invalid variable. -/
def irreducibleMask (masks : List (Dim × MaskVar)) (dim : Dim) : Except Err (Option MaskVar) :=
  masks.foldlM (irreducibleStep dim) none

variable {V W : Type}

/-- `where(mask, fill, var)` with a scalar `fill` (`lib/variable/util.cpp` 111-114,
`lib/core/include/scipp/core/element/util.h` 135-148). The mask must be `bool` without unit. The dims are merged
starting with those of the mask. -/
def whereMask (mask : MaskVar) (fill : V) (var : Arr V) : Except Err (Arr V) :=
  if !mask.isBool then .error .dtype
  else if !mask.unitNone then .error .unit
  else Arr.zip (fun m x => if m then fill else x) mask.arr var

/-- `reduce_dim` (`lib/variable/reduction.cpp` 26-48) for dense data: the output has the dims without `dim`, starts with
`init`, and the elements along `dim` are combined with `op` in order (`accumulate_in_place`; that splitting the work among
threads does not matter is C15). -/
def reduceDim (op : W → V → W) (init : W) (a : Arr V) (dim : Dim) : Except Err (Arr W) :=
  match Sizes.at? a.dims dim with
  | .error e => .error e
  | .ok n =>
    match Sizes.erase a.dims dim with
    | .error e => .error e
    | .ok dims => .ok ⟨dims, fun c => (intRange 0 n).foldl (fun acc j => op acc (a.val (upd c dim j))) init⟩

/-- `reduce_impl` (`lib/dataset/variable_reduction.cpp` 20-32): masked elements are replaced by `fill` before the
reduction. -/
def reduceImpl (op : W → V → W) (init : W) (fill : V) (var : Arr V) (masks : List (Dim × MaskVar)) (dim : Dim) :
    Except Err (Arr W) :=
  match irreducibleMask masks dim with
  | .error e => .error e
  | .ok none => reduceDim op init var dim
  | .ok (some mask) =>
    match Dims.intersection var.dims mask.arr.dims with
    | .error e => .error e
    | .ok common =>
      match mask.arr.transpose (Sizes.labels common) with
      | .error e => .error e
      | .ok arr =>
        match whereMask { mask with arr } fill var with
        | .error e => .error e
        | .ok x => reduceDim op init x dim

/-- Data array: data and masks (`lib/dataset/include/scipp/dataset/data_array.h`); coords and attrs are treated by
`apply_or_copy_dim_impl` in the same way as masks and are left out. -/
structure MaskedArr (V : Type) where
  data : Arr V
  masks : List (Dim × MaskVar)

/-- `copy_independent` (`lib/dataset/dataset_operations_common.h` 16-22): masks which do not depend on `dim` are copied. -/
def independentMasks (masks : List (Dim × MaskVar)) (dim : Dim) : List (Dim × MaskVar) :=
  (masks.filter (fun p => !Sizes.contains p.2.arr.dims dim)).map (fun p => (p.1, p.2.copy))

/-- `sum(DataArray, Dim)` etc. (`lib/templates/dataset_reduction.cpp.in` 23-31, `dataset_operations_common.h` 13-36). -/
def reduceArray (op : W → V → W) (init : W) (fill : V) (a : MaskedArr V) (dim : Dim) : Except Err (MaskedArr W) :=
  match reduceImpl op init fill a.data a.masks dim with
  | .error e => .error e
  | .ok data => .ok ⟨data, independentMasks a.masks dim⟩

/-- Loop of `reduce_all_dims` (`lib/variable/operations_common.h` 38-50): reduce the inner dim until no dim is left. The first
argument bounds the number of rounds (the number of dims is enough). A scalar is copied. -/
def reduceAllDims (op : V → V → V) (init : V) (fill : V) : Nat → MaskedArr V → Except Err (MaskedArr V)
  | 0, a => .ok a
  | n + 1, a =>
    match a.data.dims.getLast? with
    | none => .ok a
    | some p =>
      match reduceArray op init fill a p.1 with
      | .error e => .error e
      | .ok b => reduceAllDims op init fill n b

/-- `max_equals` (`lib/core/include/scipp/core/element/comparison.h` 117-127) for values without variances; `none` is NaN. -/
def maxEquals {α : Type} [LT α] [DecidableLT α] (a b : Option α) : Option α :=
  match b with
  | none => none
  | some y =>
    match a with
    | none => none
    | some x => some (if x < y then y else x)

/-- `nanmax_equals` (`comparison.h` 129-139). -/
def nanmaxEquals {α : Type} [LT α] [DecidableLT α] (a b : Option α) : Option α :=
  let a := match a with
    | none => b
    | some x => some x
  match b with
  | none => a
  | some y =>
    match a with
    | none => none
    | some x => some (if x < y then y else x)

/-- `min_equals` (`comparison.h` 141-151); `std::min(a, b)` is `(b < a) ? b : a`. -/
def minEquals {α : Type} [LT α] [DecidableLT α] (a b : Option α) : Option α :=
  match b with
  | none => none
  | some y =>
    match a with
    | none => none
    | some x => some (if y < x then y else x)

/-- `nanmin_equals` (`comparison.h` 153-163). -/
def nanminEquals {α : Type} [LT α] [DecidableLT α] (a b : Option α) : Option α :=
  let a := match a with
    | none => b
    | some x => some x
  match b with
  | none => a
  | some y =>
    match a with
    | none => none
    | some x => some (if y < x then y else x)

/-- `normalize_impl` (`lib/variable/operations_common.h` 21-29) on one element: `numerator * reciprocal(count)`. With a
count of zero the numerator is zero, too, and the result `0 * inf` is NaN (`none`). -/
def normalize {K : Type} [Mul K] [Inv K] [NatCast K] (s : K) (n : Nat) : Option K :=
  if n = 0 then none else some (s * (n : K)⁻¹)

/-- `mean(Variable, Dim, Masks)` (`variable_reduction.cpp` 73-81). Numerator and count are arrays over (a subset of) the
remaining dims and are combined by a product, which merges dims. -/
def meanImpl {K : Type} [Zero K] [Add K] [Mul K] [Inv K] [NatCast K] (var : Arr K) (masks : List (Dim × MaskVar)) (dim : Dim) :
    Except Err (Arr (Option K)) :=
  match irreducibleMask masks dim with
  | .error e => .error e
  | .ok none =>
    match reduceDim (· + ·) 0 var dim with
    | .error e => .error e
    | .ok s =>
      match Sizes.at? var.dims dim with
      | .error e => .error e
      | .ok n => .ok ⟨s.dims, fun c => normalize (s.val c) n.toNat⟩
  | .ok (some mask) =>
    match reduceDim (fun (acc : Nat) (m : Bool) => acc + (if m then 0 else 1)) 0 mask.arr dim with
    | .error e => .error e
    | .ok count =>
      match whereMask mask 0 var with
      | .error e => .error e
      | .ok x =>
        match reduceDim (· + ·) 0 x dim with
        | .error e => .error e
        | .ok s => Arr.zip normalize s count

end Scipp
