import Verif.Model.Rebin
import Verif.Model.Subspan
import Verif.Model.Masks
/-
Model of `rebin(Variable, …)` (`lib/variable/rebin.cpp` 92-168) for data with any number of dims and any memory layout, of `rebin_non_inner` (20-69) applied to all slices and to variances,
and of `rebin` with masks (`lib/dataset/rebin.cpp` 14-23). The kernels for one row are in `Verif.Model.Rebin`, spans and contiguous copies in `Verif.Model.Subspan`.
An element is a pair of value and variance; without variances the second component is ignored. Units are labels. Rounding (e.g., to `float32`) is not modelled, and neither are infinities.
Types other than those listed (strings, vectors, ...) are left out.
-/
namespace Scipp.Rebin
open Sizes
variable {K : Type} [Field K] [LinearOrder K]

/-- Element types of the data (`lib/core/include/scipp/core/dtype.h`). -/
inductive DataType
  | float64 | float32 | int64 | int32 | bool
  deriving DecidableEq, Repr

/-- Element types of the edges; `integer` stands for `int64` and `int32`. -/
inductive EdgeType
  | float64 | float32 | datetime | integer
  deriving DecidableEq, Repr

/-- Bin edges (a `Variable`). -/
structure Edges (K : Type) where
  x : Var K
  type : EdgeType
  unit : Nat
  hasVariances : Bool

/-- The data to be rebinned (a `Variable`). -/
structure Data (K : Type) where
  x : Var (Option K × Option K)
  hasVariances : Bool
  type : DataType
  unit : Nat
  binned : Bool

/-- The result (a `Variable`): dims, and the element for every assignment of coordinates. -/
structure Out (K : Type) where
  dims : Dims
  elem : (Dim → Int) → Option K × Option K
  hasVariances : Bool
  type : DataType
  unit : Nat

/-- `out_type` (`rebin.cpp` 131-133). -/
def outType : DataType → DataType
  | .int64 | .int32 | .bool => .float64
  | t => t

/-- `transform_args` (`rebin.cpp` 111-122): types of output, new edges, data and old edges. -/
def transformArgs : List (DataType × EdgeType × DataType × EdgeType) :=
  [(.float64, .float64, .int64, .float64),
   (.float64, .float64, .int32, .float64),
   (.float64, .datetime, .float64, .datetime),
   (.float32, .datetime, .float32, .datetime),
   (.float64, .datetime, .int64, .datetime),
   (.float64, .datetime, .int32, .datetime),
   (.float64, .datetime, .bool, .datetime),
   (.float64, .float64, .float64, .float64), (.float32, .float32, .float32, .float32),
   (.float32, .float64, .float32, .float64), (.float32, .float32, .float32, .float64),
   (.float64, .float64, .bool, .float64)]

/-- The branch for data with stride 1 along `dim` (`rebin.cpp` 138-147): `transform_subspan` (`lib/variable/include/scipp/variable/transform_subspan.h` 27-51, 86-92). The dims of the output are those of the
inputs without `dim` merged, with `dim` added last. The unit is computed first (`lib/core/include/scipp/core/element/rebin.h` 65-71), `subspan_view` refuses inputs with another stride, then the operation
is chosen by the types; the edges must not have variances (73-74). Values and variances are rebinned in the same way (`rebin.h` 51-57). -/
def rebinInner (less : K → K → Bool) (v : Data K) (dim : Dim) (old new : Edges K) : Except Err (Out K) := do
  let n ← at? new.x.view.dims dim
  let dn ← erase new.x.view.dims dim
  let dv ← erase v.x.view.dims dim
  let dold ← erase old.x.view.dims dim
  let m ← Dims.merge dn dv
  let m ← Dims.merge m dold
  let dims ← Dims.addInner m dim (n - 1)
  if new.unit ≠ old.unit then .error .unit
  else do
    let (_, sn) ← subspanView new.x.view dim
    let (_, sv) ← subspanView v.x.view dim
    let (_, so) ← subspanView old.x.view dim
    if ¬ (outType v.type, new.type, v.type, old.type) ∈ transformArgs then .error .dtype
    else if new.hasVariances || old.hasVariances then .error .variances
    else .ok (
      { dims := dims
        elem := fun c =>
          let xnew := readSpan new.x.buf (sn c)
          let xold := readSpan old.x.buf (so c)
          let data := readSpan v.x.buf (sv c)
          ((rebin less xnew xold (data.map Prod.fst)).getD (c dim).toNat none,
           (rebin less xnew xold (data.map Prod.snd)).getD (c dim).toNat none)
        hasVariances := v.hasVariances
        type := outType v.type
        unit := v.unit } : Out K)

/-- `accumulate_bin` (`rebin.cpp` 45-59) on the variance of one element of the slice: multiplication by a number without variance multiplies the variance by the square of the number
(`operator*`, `lib/core/include/scipp/core/value_and_variance.h` 182-186). -/
def accumulateBinVariance (less : K → K → Bool) (xold : List K) (dataOld : List (Option K)) (xnLow xnHigh : K) (out : Option K) :
    Except Err (Option K) :=
  let addFromBin := fun (v : Option K) (iold : Nat) =>
    let s := scale less xnLow xnHigh (xold.getD iold 0) (xold.getD (iold + 1) 0)
    nanAdd v (nanMul (nanMul (dataOld.getD iold none) s) s)
  let begin0 := upperBound less xold xnLow
  let end' := upperBound less xold xnHigh
  if begin0 = xold.length ∨ end' = 0 then .ok out
  else if xold.length ≤ begin0 - 1 + 1 then .error .ub
  else
    let begin' := begin0 - 1
    let v := addFromBin out begin'
    let v := if begin' + 1 < end' - 1 then sumInto v ((dataOld.drop (begin' + 1)).take (end' - 1 - (begin' + 1))) else v
    .ok (if begin' ≠ end' - 1 ∧ end' < xold.length then addFromBin v (end' - 1) else v)

/-- `rebin_non_inner` (`rebin.cpp` 20-69) for variances. -/
def rebinNonInnerVariance (less : K → K → Bool) (xnew xold : List K) (dataOld : List (Option K)) : Except Err (List (Option K)) :=
  (List.range (xnew.length - 1)).mapM fun inew =>
    accumulateBinVariance less xold dataOld (xnew.getD inew 0) (xnew.getD (inew + 1) 0) (some 0)

/-- `values<T>().data()` of the edges, `n` elements of which are used (`rebin.cpp` 31-32). -/
def rawEdges (e : Edges K) (n : Int) : List K := (List.range n.toNat).map fun (i : Nat) => e.x.buf (e.x.view.offset + i)

/-- The elements `oldT.slice({dim, i})` (`rebin.cpp` 42, 56) at position `c` of the other dims. -/
def slices (v : Data K) (dim : Dim) (n : Int) (c : Dim → Int) : List (Option K × Option K) :=
  (List.range n.toNat).map fun (i : Nat) => v.x.elem (upd c dim i)

/-- The element with index `i` of a result of `rebin_non_inner`. -/
def pick (r : Except Err (List (Option K))) (i : Int) : Option K :=
  match r with
  | .ok l => l.getD i.toNat none
  | .error _ => none

/-- The branch for data with any other stride (`rebin.cpp` 148-163). The old edges must be `float64` or `float32`, and `values<T>()` requires the same type of the new edges. Units and variances of the
edges are not looked at. Every type of the data can be multiplied by `double` and the product added to the output (`multiplies_types_t` and `add_inplace_types`, `element/arithmetic.h` 21-31, 99-102).
Whether memory outside of the edges is read depends on the edges only, and is found by rebinning zeros. -/
def rebinOuter (less : K → K → Bool) (v : Data K) (dim : Dim) (old new : Edges K) : Except Err (Out K) := do
  let n ← at? new.x.view.dims dim
  let dims ← resize v.x.view.dims dim (n - 1)
  if new.x.view.dims.length > 1 then .error .runtime
  else if ¬ (old.type = .float64 ∨ old.type = .float32) then .error .dtype
  else if old.x.view.dims.length ≠ 1 ∨ new.x.view.dims.length ≠ 1 then .error .invalidArgument
  else if new.type ≠ old.type then .error .dtype
  else do
    let size ← at? v.x.view.dims dim
    let xold := rawEdges old (size + 1)
    let xnew := rawEdges new n
    let _ ← rebinNonInner less xnew xold (List.replicate size.toNat (some 0))
    .ok (
      { dims := dims
        elem := fun c =>
          (pick (rebinNonInner less xnew xold ((slices v dim size c).map Prod.fst)) (c dim),
           pick (rebinNonInnerVariance less xnew xold ((slices v dim size c).map Prod.snd)) (c dim))
        hasVariances := v.hasVariances
        type := outType v.type
        unit := v.unit } : Out K)

/-- `allsorted(oldCoord, dim, order) && allsorted(newCoord, dim, order)` (`rebin.cpp` 124-128). -/
def bothSorted (dim : Dim) (order : Bins.SortOrder) (old new : Edges K) : Except Err Bool := do
  if ← allsorted (fun a b => decide (a ≤ b)) (fun a b => decide (b ≤ a)) old.x dim order then
    allsorted (fun a b => decide (a ≤ b)) (fun a b => decide (b ≤ a)) new.x dim order
  else .ok false

/-- `rebin(var, dim, oldCoord, newCoord)` after the first `if` (`rebin.cpp` 101-168). -/
def rebinCore (v : Data K) (dim : Dim) (old new : Edges K) : Except Err (Out K) := do
  if !isEdges v.x.view.dims old.x.view.dims dim then .error .binEdge
  else if v.binned then .error .dtype
  else do
    let ascending ← bothSorted dim .ascending old new
    let sorted ← if ascending then .ok true else bothSorted dim .descending old new
    if !sorted then .error .binEdge
    else do
      let less : K → K → Bool := if ascending then fun a b => decide (a < b) else fun a b => decide (b < a)
      let xo ← asContiguous old.x dim
      let xn ← asContiguous new.x dim
      let s ← v.x.view.stride dim
      let out ← if s = 1 then rebinInner less v dim { old with x := xo } { new with x := xn }
        else rebinOuter less v dim { old with x := xo } { new with x := xn }
      let dims ← Dims.transpose out.dims (labels v.x.view.dims)
      .ok { out with dims := dims }

/-- `rebin(var, dim, oldCoord, newCoord)` (`rebin.cpp` 92-168). In the recursive call the data has stride 1, thus the first `if` (97-100) is not taken again. -/
def rebinVar (v : Data K) (dim : Dim) (old new : Edges K) : Except Err (Out K) := do
  let s ← v.x.view.stride dim
  if s ≠ 1 ∧ (old.x.view.dims.length ≠ 1 ∨ new.x.view.dims.length ≠ 1) then do
    let x ← asContiguous v.x dim
    let out ← rebinCore { v with x := x } dim old new
    let dims ← Dims.transpose out.dims (labels v.x.view.dims)
    .ok { out with dims := dims }
  else rebinCore v dim old new

/-- The result of an elementwise operation: a new contiguous variable (`lib/variable/include/scipp/variable/transform.h`). -/
def ofArr {V : Type} (a : Arr V) : Var V := ⟨View.fresh a.dims, fun k => a.val (coordsOf a.dims k)⟩

/-- `rebin(var, dim, oldCoord, newCoord, masks)` (`lib/dataset/rebin.cpp` 14-23). `zero_like(var)` is a scalar zero, with zero variance. The `where` operation exists for all types of the data
(`lib/core/include/scipp/core/element/util.h` 135-148). -/
def rebinMasked (v : Data K) (dim : Dim) (old new : Edges K) (masks : List (Dim × MaskVar)) : Except Err (Out K) := do
  match ← irreducibleMask masks dim with
  | none => rebinVar v dim old new
  | some mask => do
    let x ← whereMask mask (some 0, some 0) (Arr.ofVar v.x)
    rebinVar { v with x := ofArr x } dim old new

end Scipp.Rebin
