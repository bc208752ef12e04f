import Verif.Model.MixedArith
import Verif.Model.Unit
/-!
Type, unit and integer width of reductions of dense variables (`lib/variable/reduction.cpp`, `lib/variable/creation.cpp`,
`lib/variable/operations_common.h`, `lib/core/include/scipp/core/element/creation.h`, `comparison.h`, `logical.h`, `special_values.h`). Vectors and
types not known to `Verif.Model.MixedArith` are left out. Values of floating-point reductions are in `Verif.Model.Special`.
-/
namespace Scipp.ReduceType
open Scipp MixedArith
open _root_.Scipp.MUnit (one)

/-- The reductions (`reduction.cpp` 55-106, 152-158). -/
inductive Red where
  | sum | nansum | min | nanmin | max | nanmax | all | any | mean | nanmean
deriving DecidableEq

/-- Type of `dense_special_like` (`lib/variable/creation.cpp` 74-82) with the fill value of the reduction (`reduction.cpp` 58, 64, 68, 72, …):
`zeros_not_bool_like` (`element/creation.h` 24-31), `values_like<bool, …>` (33-35), `numeric_limits_max_like` and
`numeric_limits_lowest_like` (48-60). All types are supported (19-22). -/
def startType : Red → ET → ET
  | .sum, t | .nansum, t | .mean, t | .nanmean, t => if t = .bool then .i64 else t
  | .min, t | .max, t | .nanmin, t | .nanmax, t => t
  | .all, _ | .any, _ => .bool

/-- Type in which is accumulated: `sum_into` and `nansum_into` use `double` for `float` (`reduction.cpp` 258-276). -/
def workType : Red → ET → ET
  | .sum, t | .nansum, t | .mean, t | .nanmean, t => if startType .sum t = .f32 then .f64 else startType .sum t
  | r, t => startType r t

/-- Whether the accumulation exists for the type of the accumulator and of the elements: `add_equals`, `nan_add_equals` (`arithmetic.h` 18-39),
`max_equals` and the like (`comparison.h` 116-164), `logical_and_equals` and `logical_or_equals` (`logical.h` 34-43). -/
def accumulates : Red → ET → ET → Bool
  | .sum, a, t | .nansum, a, t | .mean, a, t | .nanmean, a, t => addInPlace.contains (a, t)
  | .min, a, t | .max, a, t | .nanmin, a, t | .nanmax, a, t => decide (a = t)
  | .all, a, t | .any, a, t => decide (a = .bool) && decide (t = .bool)

/-- Type of `sum(var, dim)`, `min(var, dim)`, … (`reduce_dim`, `reduction.cpp` 25-45). -/
def accumulated (r : Red) (t : ET) : Except Err ET :=
  if accumulates r (workType r t) t then .ok (startType r t) else .error .dtype

/-- Type of the product of the sum with the reciprocal of the count (`normalize_impl`, `operations_common.h` 21-29): `float` or `double`, and the
multiplication of elements (`arithmetic.h` 99-116). -/
def normalizedType (t : ET) : Except Err ET :=
  let d : ET := if t = .f32 then .f32 else .f64
  if supported .mul t d then .ok (common t d) else .error .dtype

/-- Unit of that product; the unit of the count is set to one (`operations_common.h` 26). -/
def normalizedUnit {n : Nat} (r : ExpRange n) (u : MUnit n) : Except Err (MUnit n) :=
  match MUnit.div r one one with
  | .error e => .error e
  | .ok recip => MUnit.mul r u recip

/-- `isfinite` (`special_values.h` 17-42) exists for numbers only. -/
def finiteCount (t : ET) : Except Err Unit := if t.isNumber then .ok () else .error .dtype

/-- Type and unit of the reduction of a variable along a dim (`reduction.cpp` 55-114, 152-158); `accumulate_in_place` does not touch the unit
(`accumulate.h` 130-132), which is the one of the accumulator. -/
def along {n : Nat} (range : ExpRange n) (r : Red) (t : ET) (u : MUnit n) : Except Err (ET × MUnit n) :=
  match r with
  | .mean | .nanmean => do
    if r = .nanmean then finiteCount t
    let s ← accumulated .sum t
    let t' ← normalizedType s
    let u' ← normalizedUnit range u
    .ok (t', u')
  | _ => do
    let s ← accumulated r t
    .ok (s, u)

/-- Reduction of one dim after the other, `ndim` times (`reduce_all_dims`, `operations_common.h` 38-50); a scalar is copied. -/
def accumulatedAll (r : Red) : Nat → ET → Except Err ET
  | 0, t => .ok t
  | k + 1, t => match accumulated r t with
    | .error e => .error e
    | .ok s => accumulatedAll r k s

/-- Type and unit of the reduction of all dims (`reduction.cpp` 160-208). -/
def all {n : Nat} (range : ExpRange n) (r : Red) (ndim : Nat) (t : ET) (u : MUnit n) : Except Err (ET × MUnit n) :=
  match r with
  | .mean | .nanmean => do
    if r = .nanmean then finiteCount t
    let s ← accumulatedAll .sum ndim t
    let t' ← normalizedType s
    let u' ← normalizedUnit range u
    .ok (t', u')
  | _ => do
    let s ← accumulatedAll r ndim t
    .ok (s, u)

/-- The accumulator of an integer sum at the beginning (`zero_init`, `element/creation.h` 24-31). -/
def zero {F : Floats} : ET → Val F
  | .i32 => .i32 0
  | _ => .i64 0

/-- One step of a sum, once a previous one may have gone wrong (`add_equals`, `arithmetic.h` 29-30). -/
def step {F : Floats} (a b : Except Err (Val F)) : Except Err (Val F) :=
  match a, b with
  | .ok a, .ok b => inPlace .add a b
  | .error e, _ => .error e
  | _, .error e => .error e

/-- The mean of integers: the sum times the reciprocal of their number in double precision (`normalize_impl`, `operations_common.h` 21-29). -/
def meanOf {F : Floats} (sum : Except Err (Val F)) (count : Nat) : Except Err (Val F) :=
  match sum with
  | .error e => .error e
  | .ok s => builtin .mul s (.f64 (F.op64 .div (F.ofInt64 1) (F.ofInt64 count)))

end Scipp.ReduceType
