import Verif.Model.Masks
import Verif.Model.GroupBy
import Mathlib.Algebra.Field.Defs
/-
Reductions of grouped data arrays with any number of dims and masks: `makeReductionOutput`, `reduce_` and `GroupBy::mean`
(`lib/dataset/groupby.cpp` 31-212). `Verif.Model.GroupBy` models how the groups are made.
Coords and attrs, datasets, and binned data are not modelled here. The reduction dim is the dim of the grouping key; with another dim the code
throws unless a single slice covers everything.
-/
namespace Scipp.GroupArray
variable {V W : Type}

/-- `var.slice({dim, begin, end})` (`lib/variable/variable.cpp` `slice`, `lib/core/slice.cpp`) by content; `Verif.Model.View` has the
detailed model. -/
def range (a : Arr V) (dim : Dim) (r : Int × Int) : Except Err (Arr V) :=
  match Sizes.at? a.dims dim with
  | .error e => .error e
  | .ok n =>
    if 0 ≤ r.1 ∧ r.1 ≤ r.2 ∧ r.2 ≤ n then
      .ok ⟨a.dims.map (fun p => if p.1 = dim then (p.1, r.2 - r.1) else p), fun c => a.val (upd c dim (r.1 + c dim))⟩
    else .error .slice

/-- `op(out_slice, x)`, i.e., `accumulate_in_place` (`lib/variable/include/scipp/variable/accumulate.h` 14-140; threading is C15) along
`dim`: the dims of the output must be dims of the input. -/
def accumulate (op : W → V → W) (acc : Arr W) (x : Arr V) (dim : Dim) : Except Err (Arr W) :=
  match Sizes.at? x.dims dim with
  | .error e => .error e
  | .ok n =>
    if Sizes.includes x.dims acc.dims then
      .ok ⟨acc.dims, fun c => (intRange 0 n).foldl (fun w j => op w (x.val (upd c dim j))) (acc.val c)⟩
    else .error .dimension

/-- What is known about the data and the fill value: is the dtype of the data `bool`, and is the fill value `FillValue::ZeroNotBool`, whose dtype
is `int64` for `bool` data (`lib/core/include/scipp/core/element/creation.h` 25-32). -/
structure Kind where
  boolData : Bool := false
  zeroNotBool : Bool := false

/-- `where(mask.slice(slice), mask_replacement, data_slice)` (`groupby.cpp` 86-87): there is no `where` of `int64` and `bool`
(`lib/core/include/scipp/core/element/util.h` 132-141). -/
def maskedSlice (kind : Kind) (fill : V) (mask : Option MaskVar) (data : Arr V) (dim : Dim) (r : Int × Int) : Except Err (Arr V) :=
  match mask with
  | none => range data dim r
  | some m =>
    match range data dim r, range m.arr dim r with
    | .error e, _ => .error e
    | _, .error e => .error e
    | .ok x, .ok arr =>
      if kind.boolData && kind.zeroNotBool then .error .dtype else whereMask { m with arr } fill x

/-- Inner loop of `reduce_` (`groupby.cpp` 84-91). -/
def reduceGroup (kind : Kind) (op : W → V → W) (fill : V) (mask : Option MaskVar) (data : Arr V) (dim : Dim) (out : Arr W)
    (ranges : List (Int × Int)) : Except Err (Arr W) :=
  ranges.foldlM (fun acc r =>
    match maskedSlice kind fill mask data dim r with
    | .error e => .error e
    | .ok x => accumulate op acc x dim) out

/-- `GroupBy::reduce` for a data array (`groupby.cpp` 95-109) with `makeReductionOutput` (55-68) and `reduce_` (71-93). `init` is the
fill value in the dtype of the output. The output has the dims of the data, with the reduction dim renamed to `key`; the renaming fails
if there is a dim of that name (`lib/core/sizes.cpp` `rename_dims`). Masks depending on the reduction dim are dropped (`resize`,
`lib/dataset/shape.cpp` 148-163). -/
def groupReduce (kind : Kind) (op : W → V → W) (init : W) (fill : V) (a : MaskedArr V) (dim key : Dim)
    (groups : List (List (Int × Int))) : Except Err (MaskedArr W) :=
  if !Sizes.contains a.data.dims dim then .error .dimension
  else if key ≠ dim ∧ Sizes.contains a.data.dims key then .error .dimension
  else
    match irreducibleMask a.masks dim with
    | .error e => .error e
    | .ok mask =>
      match groups.mapM (reduceGroup kind op fill mask a.data dim ⟨a.data.dims.filter (fun p => decide (p.1 ≠ dim)), fun _ => init⟩) with
      | .error e => .error e
      | .ok slices =>
        .ok ⟨⟨a.data.dims.map (fun p => if p.1 = dim then (key, (groups.length : Int)) else p),
          fun c => match slices[(c key).toNat]? with
            | some s => s.val c
            | none => init⟩, independentMasks a.masks dim⟩

/-- Step of the inner loop of `get_scale` (`groupby.cpp` 180-189): the length of the slice minus the number of masked positions. `value` throws
unless the sum of the mask is 0-D. -/
def scaleStep (mask : Option MaskVar) (dim : Dim) (s : Int) (r : Int × Int) : Except Err Int :=
  match mask with
  | none => .ok (s + (r.2 - r.1))
  | some m =>
    match range m.arr dim r with
    | .error e => .error e
    | .ok x =>
      match reduceDim (fun (acc : Int) (b : Bool) => acc + (if b then 1 else 0)) 0 x dim with
      | .error e => .error e
      | .ok count => if count.dims = [] then .ok (s + (r.2 - r.1) - count.val (fun _ => 0)) else .error .dimension

/-- `get_scale` (`groupby.cpp` 172-192) before taking the reciprocal. -/
def scale (mask : Option MaskVar) (dim : Dim) (groups : List (List (Int × Int))) : Except Err (List Int) :=
  groups.mapM (fun ranges => ranges.foldlM (scaleStep mask dim) 0)

/-- `GroupBy::mean` for a data array (`groupby.cpp` 166-212): the sum times the reciprocal of the scale. The scale has the unit `one`: there is no
product with data without a unit (`lib/units/unit.cpp` 109-118). Integer data gives `double` (`K` is any field, rounding is not
modelled). With a scale of zero the sum is zero, too, and `0 * inf` is NaN (`none`). -/
def groupMean {K : Type} [Field K] (unitNone : Bool) (a : MaskedArr K) (dim key : Dim) (groups : List (List (Int × Int))) :
    Except Err (MaskedArr (Option K)) :=
  match groupReduce {} (· + ·) 0 0 a dim key groups with
  | .error e => .error e
  | .ok out =>
    match irreducibleMask a.masks dim with
    | .error e => .error e
    | .ok mask =>
      match scale mask dim groups with
      | .error e => .error e
      | .ok scales =>
        if unitNone then .error .unit
        else .ok ⟨⟨out.data.dims, fun c => normalize (out.data.val c) ((scales[(c key).toNat]?).getD 0).toNat⟩, out.masks⟩

end Scipp.GroupArray
