import Verif.Model.Masks
/-
Reductions computed with NumPy: `var`, `std`, `median` and their `nan` versions (`src/scipp/core/reduction.py` 897-962), with the functions of
`src/scipp/core/concepts.py` that deal with coords and masks of the result, and sums over several dims (`reduction.py` 644-650). Variables are represented
by content (`Verif.Model.Arr`), NumPy arrays by their shape and the element at every index. NumPy itself is not part of the repository: `npReduce` is what
it documents for reductions along several axes. Not modelled: datasets and data groups (907-910), dtypes.
-/
namespace Scipp.NpRed
variable {V W U : Type}

/-- A NumPy array. -/
structure NpArr (V : Type) where
  shape : List Int
  get : List Int → V

/-- `x.values` (used in `reduction.py` 918, 925, 929): an array with the shape of the variable; index `k` belongs to the `k`-th dim. -/
def values (a : Arr V) : NpArr V :=
  ⟨Sizes.shape a.dims, fun idx => a.val (fun d => idx.getD ((Sizes.labels a.dims).idxOf d) 0)⟩

/-- All indices of an array, the last one varying fastest. -/
def indices : List Int → List (List Int)
  | [] => [[]]
  | n :: ns => (intRange 0 n).flatMap (fun i => (indices ns).map (fun is => i :: is))

/-- Remove the entries at the positions in `axis`; the first argument of the recursion is the position of the first entry. -/
def keep {α : Type} (axis : List Nat) : Nat → List α → List α
  | _, [] => []
  | k, x :: xs => if k ∈ axis then keep axis (k + 1) xs else x :: keep axis (k + 1) xs

/-- A NumPy reduction `f(a, axis=axis)` with a tuple of axes (called in `reduction.py` 918, 927, 929): the axes are removed from the shape, and `f` is applied
to all elements whose remaining indices are given. NumPy raises `ValueError` for repeated axes. -/
def npReduce (axis : List Nat) (f : List V → W) (a : NpArr V) : Except Err (NpArr W) :=
  if axis.Nodup then
    .ok ⟨keep axis 0 a.shape, fun idx => f (((indices a.shape).filter (fun is => decide (keep axis 0 is = idx))).map a.get)⟩
  else .error .invalidArgument

/-- One of the functions `median`, `nanmedian`, `var`, ... (`reduction.py` 179-187, 248-256, 338-346, 424-432, 517-525, 605-613): `np_func` on the
elements contributing to an output element, and `unit_func`. `np_ma_func` is `np.ma.median`, `np.ma.var` or `np.ma.std` if `masked` is true; these compute the same from
the elements that are not masked if there are enough of them (one for the median, more than `ddof` for the others), and return a masked element otherwise, with
`fill` in the data array of the result. If `masked` is false, `np_ma_func` is `_catch_masked`, which raises `ValueError` (240-246, 416-422, 597-603). -/
structure Func (V W U : Type) where
  func : List V → W
  unitFunc : U → U
  masked : Bool
  enough : Nat → Bool
  fill : List (Option V) → W

/-- `np_ma_func` on the elements contributing to an output element: the element of the data array of the result, and of its mask. -/
def Func.ma (F : Func V W U) (l : List (Option V)) : W × Bool :=
  if F.enough (l.filterMap id).length then (F.func (l.filterMap id), false) else (F.fill l, true)

/-- A variable: content, unit, and whether `variances` or `bins` is not `None`. -/
structure PVar (V U : Type) where
  arr : Arr V
  unit : Option U
  variances : Bool := false
  binned : Bool := false

/-- A data array: data, coords, attrs and masks. -/
structure PArr (V U : Type) where
  data : PVar V U
  coords : List (Dim × Entry)
  attrs : List (Dim × Entry)
  masks : List (Dim × MaskVar)

/-- `concrete_dims` (`concepts.py` 56-67). `none` is `dim=None`; a single label is a tuple of one label. The dims of a variable or data array are never
`None` themselves. -/
def concreteDims (dims : Dims) : Option (List Dim) → List Dim
  | none => Sizes.labels dims
  | some ds => ds

/-- `_dim_index` (`reduction.py` 939-943). -/
def dimIndex (labels : List Dim) (d : Dim) : Except Err Nat :=
  if d ∈ labels then .ok (labels.idxOf d) else .error .dimension

/-- `_dims_to_axis` (`reduction.py` 935-936). -/
def dimsToAxis (labels : List Dim) : List Dim → Except Err (List Nat)
  | [] => .ok []
  | d :: ds =>
    match dimIndex labels d with
    | .error e => .error e
    | .ok i =>
      match dimsToAxis labels ds with
      | .error e => .error e
      | .ok is => .ok (i :: is)

/-- `out_dims` of `_split_dims` (`reduction.py` 950). -/
def outDims (labels reduced : List Dim) : List Dim := labels.filter (fun d => decide (d ∉ reduced))

/-- `array(dims=..., values=...)` (`reduction.py` 916-920, 931): a variable with the given dim labels and the shape and elements of the NumPy array. A mask of the array
is ignored. -/
def array (labels : List Dim) (a : NpArr V) : Except Err (Arr V) :=
  match Dims.ofLabels labels a.shape with
  | .error e => .error e
  | .ok dims => .ok ⟨dims, fun c => a.get (labels.map c)⟩

/-- `_expect_no_variance`, `_expect_not_binned` (`reduction.py` 955-962). -/
def expectPlain (x : PVar V U) : Except Err Unit :=
  if x.variances then .error .variances else if x.binned then .error .dtype else .ok ()

/-- `_reduce_with_numpy` for a `Variable` (`reduction.py` 912-920). -/
def reduceVar (F : Func V W U) (x : PVar V U) (dim : Option (List Dim)) : Except Err (PVar W U) := do
  expectPlain x
  let reduced := concreteDims x.arr.dims dim
  let axis ← dimsToAxis (Sizes.labels x.arr.dims) reduced
  let vals ← npReduce axis F.func (values x.arr)
  let arr ← array (outDims (Sizes.labels x.arr.dims) reduced) vals
  .ok { arr, unit := x.unit.map F.unitFunc }

/-- `not dims.isdisjoint(mask.dims)` (`concepts.py` 90). -/
def dependsOn (dims : List Dim) (d : Dims) : Bool := (Sizes.labels d).any (fun e => decide (e ∈ dims))

/-- `reduce(logical_or, irreducible)` (`concepts.py` 99), `m` is the first item. -/
def orAll (m : MaskVar) : List MaskVar → Except Err MaskVar
  | [] => .ok m
  | x :: xs =>
    match m.or x with
    | .error e => .error e
    | .ok r => orAll r xs

/-- `_transposed_like_data` (`concepts.py` 94-95). -/
def transposedLike (dims : Dims) (m : MaskVar) : Except Err MaskVar :=
  match m.arr.transpose ((Sizes.labels dims).filter (fun d => decide (d ∈ Sizes.labels m.arr.dims))) with
  | .error e => .error e
  | .ok arr => .ok { m with arr }

/-- `irreducible_mask` (`concepts.py` 82-99). -/
def irreducibleMask (dims : Dims) (masks : List (Dim × MaskVar)) (reduced : List Dim) : Except Err (Option MaskVar) :=
  match (masks.map Prod.snd).filter (fun m => dependsOn reduced m.arr.dims) with
  | [] => .ok none
  | [m] =>
    match transposedLike dims m with
    | .error e => .error e
    | .ok r => .ok (some r.copy)
  | m :: ms =>
    match orAll m ms with
    | .error e => .error e
    | .ok u =>
      match transposedLike dims u with
      | .error e => .error e
      | .ok r => .ok (some r)

/-- `mask.broadcast(dims=x.dims, shape=x.shape)` (`reduction.py` 925; `lib/variable/variable.cpp` 238-247, see `View.broadcast`). -/
def broadcast (a : Arr Bool) (dims : Dims) : Except Err (Arr Bool) :=
  if Sizes.includes dims a.dims then .ok ⟨dims, a.val⟩ else .error .dimension

/-- `np.ma.masked_where(mask, values)` (`reduction.py` 924-926): masked elements are `none`. The arrays have the same shape. -/
def maskedWhere (mask : NpArr Bool) (vals : NpArr V) : NpArr (Option V) :=
  ⟨vals.shape, fun idx => if mask.get idx then none else some (vals.get idx)⟩

/-- `res` (`reduction.py` 923-929). Of the result of `np_ma_func`, only the data array is used in what follows. -/
def arrayValues (F : Func V W U) (x : PArr V U) (reduced : List Dim) (axis : List Nat) : Except Err (NpArr W) := do
  match ← irreducibleMask x.data.arr.dims x.masks reduced with
  | some mask =>
    let b ← broadcast mask.arr x.data.arr.dims
    if !F.masked then .error .invalidArgument
    else npReduce axis (fun l => (F.ma l).1) (maskedWhere (values b) (values x.data.arr))
  | none => npReduce axis F.func (values x.data.arr)

/-- `_reduced` (`concepts.py` 19-21), used for coords, attrs and masks (70-79). -/
def reducedItems {M : Type} (dimsOf : M → Dims) (items : List (Dim × M)) (reduced : List Dim) : List (Dim × M) :=
  items.filter (fun p => !dependsOn reduced (dimsOf p.2))

/-- `rewrap_reduced_data` (`concepts.py` 36-42) with the constructor of `DataArray`, which checks that coords, attrs and masks fit the data
(`lib/dataset/sized_dict.cpp` 67-74). Masks are copied. -/
def rewrap (x : PArr V U) (data : PVar W U) (reduced : List Dim) : Except Err (PArr W U) := do
  let coords ← SizedDict.ofItems data.arr.dims (reducedItems Entry.dims x.coords reduced) false
  let masks ← ((reducedItems (fun m => m.arr.dims) x.masks reduced).map (fun p => (p.1, p.2.copy))).foldlM (fun d p => MaskDict.set d p.1 p.2)
    ⟨data.arr.dims, [], false⟩
  let attrs ← SizedDict.ofItems data.arr.dims (reducedItems Entry.dims x.attrs reduced) false
  .ok { data, coords := coords.items, attrs := attrs.items, masks := masks.items }

/-- `_reduce_with_numpy` for a `DataArray` (`reduction.py` 912-914, 922-933). The unit is that of the input. -/
def reduceArr (F : Func V W U) (x : PArr V U) (dim : Option (List Dim)) : Except Err (PArr W U) := do
  expectPlain x.data
  let reduced := concreteDims x.data.arr.dims dim
  let axis ← dimsToAxis (Sizes.labels x.data.arr.dims) reduced
  let vals ← arrayValues F x reduced axis
  let arr ← array (outDims (Sizes.labels x.data.arr.dims) reduced) vals
  rewrap x { arr, unit := x.data.unit } reduced

/-- `sum` of a data array with a tuple of dims (`reduction.py` 648-650): one dim after the other. -/
def sumDims [Add V] [Zero V] (x : MaskedArr V) (dims : List Dim) : Except Err (MaskedArr V) :=
  dims.foldlM (fun x d => reduceArray (fun a b => a + b) 0 0 x d) x

end Scipp.NpRed
