import Verif.Model.Masks
import Verif.Model.Bins
/-
Reductions of binned data: `lib/variable/reduction.cpp`, `lib/dataset/variable_reduction.cpp`, `lib/dataset/mean.cpp` and the
masks of events (`lib/dataset/variable_instantiate_bin_elements.cpp`).

The buffer is one-dimensional; its data and its masks are arrays along the event dim, row `k` of the buffer is read with all
coordinates set to `k`. Units, dtypes and variances of the data are left out, as are coords and attrs.
-/
namespace Scipp.EventMasks
open Scipp.Bins (valuesOf ofValues contiguousLoop)

/-- A binned variable: bin indices, event dim, and the buffer with its masks (`constituents<DataArray>`,
`lib/variable/include/scipp/variable/bin_array_model.h` 52-110). -/
structure EventArr (V : Type) where
  indices : Arr (Int × Int)
  dim : Dim
  buffer : MaskedArr V

variable {V W : Type}

/-- `irreducible_event_mask` (`lib/dataset/variable_instantiate_bin_elements.cpp` 141-145). -/
def irreducibleEventMask (b : EventArr V) : Except Err (Option MaskVar) := irreducibleMask b.buffer.masks b.dim

/-- `apply_event_masks` with `apply_mask` (`variable_instantiate_bin_elements.cpp` 80-86, 131-139): the result has the same
bins, its buffer is a variable without masks. -/
def applyEventMasks (fill : V) (b : EventArr V) : Except Err (EventArr V) :=
  match irreducibleEventMask b with
  | .error e => .error e
  | .ok none => .ok b
  | .ok (some m) =>
    match whereMask m fill b.buffer.data with
    | .error e => .error e
    | .ok x => .ok { b with buffer := ⟨x, []⟩ }

/-- The elements of the bin at coordinates `c` in the order of iteration (C13). -/
def elems (b : EventArr V) (c : Dim → Int) : List V :=
  (intRange (b.indices.val c).1 (b.indices.val c).2).map (fun k => b.buffer.data.val (fun _ => k))

/-- `reduce_bins` (`lib/variable/reduction.cpp` 47-52): `accum` with the dims of the bins starts with `init`, the elements of
each bin are combined with `op` in order. How the work is split among threads is the subject of C15. In all uses `init` and
the `fill` for masked events denote the same value. -/
def reduceBins (op : W → V → W) (init : W) (fill : V) (b : EventArr V) : Except Err (Arr W) :=
  match applyEventMasks fill b with
  | .error e => .error e
  | .ok x => .ok ⟨x.indices.dims, fun c => (elems x c).foldl op init⟩

/-- `reduce_dim` (`reduction.cpp` 39-45) for binned data. -/
def reduceDimBins (op : W → V → W) (init : W) (fill : V) (b : EventArr V) (dim : Dim) : Except Err (Arr W) :=
  if dim = Dim.invalid then reduceBins op init fill b
  else
    match Sizes.at? b.indices.dims dim with
    | .error e => .error e
    | .ok n =>
      match Sizes.erase b.indices.dims dim with
      | .error e => .error e
      | .ok dims =>
        match applyEventMasks fill b with
        | .error e => .error e
        | .ok x => .ok ⟨dims, fun c =>
            (intRange 0 n).foldl (fun acc j => (elems x (upd c dim j)).foldl op acc) init⟩

/-- `sum(var)` of binned data (`reduction.cpp` 161-163, `reduce_all_dims`, `lib/variable/operations_common.h` 38-50): the inner
dim first, `Dim::Invalid` for a single bin; the result is dense and its dims are reduced one after the other. -/
def sumAll {K : Type} [Zero K] [Add K] (b : EventArr V) (op : K → V → K) (fill : V) : Except Err (Arr K) :=
  match reduceDimBins op 0 fill b ((b.indices.dims.getLast?.map Prod.fst).getD Dim.invalid) with
  | .error e => .error e
  | .ok x =>
    match reduceAllDims (· + ·) 0 0 x.dims.length ⟨x, []⟩ with
    | .error e => .error e
    | .ok r => .ok r.data

/-- `sum_into` of a `bool` into an `int64` (`lib/core/include/scipp/core/element/arithmetic.h`, `add_equals`). -/
def addBool (acc : Int) (m : Bool) : Int := acc + (if m then 1 else 0)

/-- `unmasked_events` (`reduction.cpp` 118-129): the inverted masks, binned like the data. `logical_not` requires `bool` without
unit. -/
def unmaskedEventsVar (b : EventArr V) : Except Err (Option (EventArr Bool)) :=
  match irreducibleEventMask b with
  | .error e => .error e
  | .ok none => .ok none
  | .ok (some m) =>
    if !m.isBool then .error .dtype
    else if !m.unitNone then .error .unit
    else .ok (some ⟨b.indices, b.dim, ⟨⟨m.arr.dims, fun c => !m.arr.val c⟩, []⟩⟩)

/-- `count(var, dim)` (`reduction.cpp` 131-143) for binned data. -/
def countDim (b : EventArr V) (dim : Dim) : Except Err (Arr Int) :=
  match unmaskedEventsVar b with
  | .error e => .error e
  | .ok (some u) => reduceDimBins addBool 0 false u dim
  | .ok none => reduceDim (· + ·) 0 (Bins.binSizes b.indices) dim

/-- `count(var)` (`reduction.cpp` 131-143) for binned data. -/
def countAll (b : EventArr V) : Except Err (Arr Int) :=
  match unmaskedEventsVar b with
  | .error e => .error e
  | .ok (some u) => sumAll u addBool false
  | .ok none =>
    match reduceAllDims (· + ·) 0 0 b.indices.dims.length ⟨Bins.binSizes b.indices, []⟩ with
    | .error e => .error e
    | .ok r => .ok r.data

/-- `bins_count` (`reduction.cpp` 145-150). -/
def binsCount (b : EventArr V) : Except Err (Arr Int) :=
  match unmaskedEventsVar b with
  | .error e => .error e
  | .ok (some u) => reduceBins addBool 0 false u
  | .ok none => .ok (Bins.binSizes b.indices)

/-- `normalize_impl` (`operations_common.h` 21-29) on one element; `none` is NaN (`0 * inf`). -/
def normalizeInt {K : Type} [Mul K] [Inv K] [IntCast K] (s : K) (n : Int) : Option K :=
  if n = 0 then none else some (s * (n : K)⁻¹)

section Mean
variable {K : Type} [Zero K] [Add K] [Mul K] [Inv K] [IntCast K]

/-- `bins_mean` (`reduction.cpp` 249-251). -/
def binsMean (b : EventArr K) : Except Err (Arr (Option K)) :=
  match reduceBins (· + ·) 0 0 b with
  | .error e => .error e
  | .ok s =>
    match binsCount b with
    | .error e => .error e
    | .ok n => Arr.zip normalizeInt s n

/-- `mean(var, dim)` (`reduction.cpp` 108-110, 152-154) for binned data. -/
def meanDim (b : EventArr K) (dim : Dim) : Except Err (Arr (Option K)) :=
  match countDim b dim with
  | .error e => .error e
  | .ok n =>
    match reduceDimBins (· + ·) 0 0 b dim with
    | .error e => .error e
    | .ok s => Arr.zip normalizeInt s n

/-- `mean(var)` (`reduction.cpp` 201-203) for binned data. -/
def meanAll (b : EventArr K) : Except Err (Arr (Option K)) :=
  match sumAll b (· + ·) 0 with
  | .error e => .error e
  | .ok s =>
    match countAll b with
    | .error e => .error e
    | .ok n => Arr.zip normalizeInt s n

end Mean

/-! ### Masks of bins -/

/-- Where the rows of the output buffer come from, in order: the number of the bin and the row of the input buffer. -/
def sourcesFrom : Nat → List (Int × Int) → List (Nat × Int)
  | _, [] => []
  | i, r :: l => (intRange r.1 r.2).map (fun k => (i, k)) ++ sourcesFrom (i + 1) l

/-- A mask of the resized buffer (`resize_default_init` and `copy`, `variable_instantiate_bin_elements.cpp` 115-121): masks not
depending on the event dim are copied, the others get the rows of the bins. -/
def resizeMask (dim : Dim) (src : List (Nat × Int)) (m : MaskVar) : MaskVar :=
  if Sizes.contains m.arr.dims dim then
    { m.copy with arr := ⟨[(dim, src.length)], fun c => m.arr.val (fun _ => ((src[(c dim).toNat]?).getD (0, 0)).2)⟩ }
  else m.copy

/-- `where(mask, fill, var)` with a mask for bins, a dense scalar, and binned data with masks of events: `create`
(`lib/variable/include/scipp/variable/bin_array_variable.tcc` 124-139) with `contiguous_indices`
(`lib/variable/bin_array_variable.cpp` 9-18) and `call_make_bins` (`variable_instantiate_bin_elements.cpp` 92-123) for the
output, then the elementwise operation on the bins. -/
def whereBins (mask : MaskVar) (fill : V) (b : EventArr V) : Except Err (EventArr V) :=
  if !mask.isBool then .error .dtype
  else if !mask.unitNone then .error .unit
  else
    match Dims.merge mask.arr.dims b.indices.dims with
    | .error e => .error e
    | .ok dims =>
      if dims ≠ b.indices.dims then .error .runtime
      else
        let values := valuesOf b.indices
        let indices := contiguousLoop 0 values
        let src := sourcesFrom 0 values
        let data : Arr V := ⟨[(b.dim, (src.length : Int))], fun c =>
          let s := (src[(c b.dim).toNat]?).getD (0, 0)
          if mask.arr.val (coordsOf dims s.1) then fill else b.buffer.data.val (fun _ => s.2)⟩
        let masks :=
          if b.buffer.data.dims = [(b.dim, (src.length : Int))] ∧ indices = values then
            b.buffer.masks.map (fun p => (p.1, p.2.copy))
          else b.buffer.masks.map (fun p => (p.1, resizeMask b.dim src p.2))
        .ok ⟨ofValues dims indices, b.dim, ⟨data, masks⟩⟩

/-- `reduce_impl` (`lib/dataset/variable_reduction.cpp` 20-32) for binned data. -/
def reduceImplBins (op : W → V → W) (init : W) (fill : V) (b : EventArr V) (masks : List (Dim × MaskVar)) (dim : Dim) :
    Except Err (Arr W) :=
  match irreducibleMask masks dim with
  | .error e => .error e
  | .ok none => reduceDimBins op init fill b dim
  | .ok (some mask) =>
    match Dims.intersection b.indices.dims mask.arr.dims with
    | .error e => .error e
    | .ok common =>
      match mask.arr.transpose (Sizes.labels common) with
      | .error e => .error e
      | .ok arr =>
        match whereBins { mask with arr } fill b with
        | .error e => .error e
        | .ok x => reduceDimBins op init fill x dim

/-- `isfinite` of binned data: elementwise, keeping bins and masks (the copy of the buffer made on the way is that of `whereBins`). -/
def mapEvents (f : V → W) (b : EventArr V) : EventArr W :=
  ⟨b.indices, b.dim, ⟨⟨b.buffer.data.dims, fun c => f (b.buffer.data.val c)⟩, b.buffer.masks⟩⟩

/-- `sum(DataArray)` of binned data (`lib/templates/dataset_reduction.cpp.in` 15-19 with `reduce_all_dims`,
`operations_common.h` 38-50): the inner dim with the masks depending on it, then the dense result with the others. -/
def sumArrayAll {K : Type} [Zero K] [Add K] (op : K → V → K) (fill : V) (b : EventArr V) (masks : List (Dim × MaskVar)) :
    Except Err (Arr K) :=
  let dim := (b.indices.dims.getLast?.map Prod.fst).getD Dim.invalid
  match reduceImplBins op 0 fill b masks dim with
  | .error e => .error e
  | .ok x =>
    match reduceAllDims (· + ·) 0 0 x.dims.length ⟨x, independentMasks masks dim⟩ with
    | .error e => .error e
    | .ok r => .ok r.data

/-- `mean(DataArray)` of binned data (`lib/dataset/mean.cpp` 21-23). -/
def meanArrayAll {K : Type} [Zero K] [Add K] [Mul K] [Inv K] [IntCast K] (finite : K → Bool) (b : EventArr K)
    (masks : List (Dim × MaskVar)) : Except Err (Arr (Option K)) :=
  match sumArrayAll (· + ·) 0 b masks with
  | .error e => .error e
  | .ok s =>
    match sumArrayAll addBool false (mapEvents finite b) masks with
    | .error e => .error e
    | .ok n => Arr.zip normalizeInt s n

/-- The kind of buffer: `bin<Variable>` or `bin<DataArray>`. -/
inductive BufferKind where
  | variable
  | dataArray

/-- `where(mask_union, zero_like(var), var)` (`variable_reduction.cpp` 78) for binned `var`: `zero_like(var)`
(`lib/variable/creation.cpp` `zero_like`) is a single empty bin (`makeDefaultFromParent`, `bin_array_variable.tcc` 207-212).
`bin_parent` (96-107) refuses two binned arguments if the buffer is a data array, otherwise all bins are compared in size with
the empty bin (`validate_bin_indices`, `lib/core/multi_index.cpp` 20-38). If all bins are empty so is the result. -/
def whereZeroLike (kind : BufferKind) (mask : MaskVar) (b : EventArr V) : Except Err (EventArr V) :=
  match kind with
  | .dataArray => .error .binned
  | .variable =>
    if !mask.isBool then .error .dtype
    else if !mask.unitNone then .error .unit
    else
      match Dims.merge mask.arr.dims b.indices.dims with
      | .error e => .error e
      | .ok dims =>
        if (valuesOf b.indices).all (fun r => decide (r.2 - r.1 = 0)) then
          .ok ⟨⟨dims, fun _ => (0, 0)⟩, b.dim, ⟨⟨[(b.dim, 0)], b.buffer.data.val⟩, []⟩⟩
        else .error .binned

/-- `mean(var, dim, masks)` (`variable_reduction.cpp` 73-81) for binned data. -/
def meanImplBins {K : Type} [Zero K] [Add K] [Mul K] [Inv K] [IntCast K] (kind : BufferKind) (b : EventArr K)
    (masks : List (Dim × MaskVar)) (dim : Dim) : Except Err (Arr (Option K)) :=
  match irreducibleMask masks dim with
  | .error e => .error e
  | .ok none => meanDim b dim
  | .ok (some mask) =>
    match reduceDim (fun acc m => addBool acc (!m)) 0 mask.arr dim with
    | .error e => .error e
    | .ok count =>
      match whereZeroLike kind mask b with
      | .error e => .error e
      | .ok x =>
        match reduceDimBins (· + ·) 0 0 x dim with
        | .error e => .error e
        | .ok s => Arr.zip normalizeInt s count

end Scipp.EventMasks
