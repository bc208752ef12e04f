import Verif.Model.Sizes
import Verif.Model.Numeric
/-!
Arithmetic of elements of different types, out of place and in place (`lib/core/include/scipp/core/element/arithmetic.h`,
`lib/core/include/scipp/core/time_point.h`, `lib/common/include/scipp/common/numeric.h`). Vectors, matrices, transformations and
`SubbinSizes` are left out (see `Verif.Model.Spatial`), as are variances and units (see `Verif.Model.ValueAndVariance`, `Verif.Model.Unit`).
-/
namespace Scipp.MixedArith
open Scipp

/-- Types of elements. -/
inductive ET where
  | f64 | f32 | i64 | i32 | bool | time
deriving DecidableEq

/-- The operations of floating-point numbers. -/
inductive FOp where
  | add | sub | mul | div
deriving DecidableEq

/-- The floating-point arithmetic of the machine, left open: single and double precision, conversions, rounding down. -/
structure Floats where
  F32 : Type
  F64 : Type
  op32 : FOp → F32 → F32 → F32
  op64 : FOp → F64 → F64 → F64
  widen : F32 → F64
  narrow : F64 → F32
  ofInt32 : Int → F32
  ofInt64 : Int → F64
  floor32 : F32 → F32
  floor64 : F64 → F64
  isZero32 : F32 → Bool
  isZero64 : F64 → Bool
  nan : F32

/-- An element. -/
inductive Val (F : Floats) where
  | f64 (x : F.F64) | f32 (x : F.F32) | i64 (n : Int) | i32 (n : Int) | bool (b : Bool) | time (n : Int)

variable {F : Floats}

/-- Type of an element. -/
def Val.et : Val F → ET
  | .f64 _ => .f64
  | .f32 _ => .f32
  | .i64 _ => .i64
  | .i32 _ => .i32
  | .bool _ => .bool
  | .time _ => .time

/-- Conversion to an integer type, for integers and `bool`; others do not occur. -/
def Val.asInt : Val F → Int
  | .i64 n | .i32 n | .time n => n
  | .bool b => if b then 1 else 0
  | _ => 0

/-- Conversion to `double`. -/
def Val.asF64 : Val F → F.F64
  | .f64 x => x
  | .f32 x => F.widen x
  | v => F.ofInt64 v.asInt

/-- Conversion to `float`. -/
def Val.asF32 : Val F → F.F32
  | .f64 x => F.narrow x
  | .f32 x => x
  | v => F.ofInt32 v.asInt

/-- Comparison with zero. -/
def Val.isZero : Val F → Bool
  | .f64 x => F.isZero64 x
  | .f32 x => F.isZero32 x
  | v => decide (v.asInt = 0)

/-- The usual arithmetic conversions of C++ for the operands of an operator (also `std::common_type_t`, except for two `bool`). -/
def common (a b : ET) : ET :=
  if a = .f64 ∨ b = .f64 then .f64
  else if a = .f32 ∨ b = .f32 then .f32
  else if a = .i64 ∨ b = .i64 then .i64
  else .i32

/-- The result of an integer operation; overflow is undefined. -/
def fit (bits : Nat) (n : Int) : Except Err Int := if -2 ^ (bits - 1) ≤ n ∧ n < 2 ^ (bits - 1) then .ok n else .error .ub

/-- The integer operation; division of integers is not used. -/
def intOp : FOp → Int → Int → Int
  | .add, x, y => x + y
  | .sub, x, y => x - y
  | .mul, x, y => x * y
  | .div, _, _ => 0

/-- A built-in operator of C++ applied to numbers. -/
def builtin (op : FOp) (a b : Val F) : Except Err (Val F) :=
  match common a.et b.et with
  | .f64 => .ok (.f64 (F.op64 op a.asF64 b.asF64))
  | .f32 => .ok (.f32 (F.op32 op a.asF32 b.asF32))
  | .i64 => (fit 64 (intOp op a.asInt b.asInt)).map .i64
  | _ => (fit 32 (intOp op a.asInt b.asInt)).map .i32

/-- The operations. -/
inductive Op where
  | add | sub | mul | div | floorDiv | mod
deriving DecidableEq

/-- `is_integral_v`. -/
def ET.isInt : ET → Bool
  | .i64 | .i32 | .bool => true
  | _ => false

/-- Rounding down a floating-point number. -/
def Val.floor : Val F → Val F
  | .f64 x => .f64 (F.floor64 x)
  | .f32 x => .f32 (F.floor32 x)
  | v => v

/-- `operator+` of elements (`arithmetic.h` 152-153, `time_point.h` 23-28). -/
def plus (a b : Val F) : Except Err (Val F) :=
  match a, b with
  | .time t, b => (fit 64 (t + b.asInt)).map .time
  | a, .time t => (fit 64 (a.asInt + t)).map .time
  | a, b => builtin .add a b

/-- `operator-` of elements (`arithmetic.h` 154-155, `time_point.h` 30-35). -/
def minus (a b : Val F) : Except Err (Val F) :=
  match a, b with
  | .time s, .time t => (fit 64 (s - t)).map .i64
  | .time t, b => (fit 64 (t - b.asInt)).map .time
  | a, b => builtin .sub a b

/-- `numeric::true_divide` (`numeric.h` 55-60). -/
def trueDivide (a b : Val F) : Except Err (Val F) :=
  if a.et.isInt ∧ b.et.isInt then .ok (.f64 (F.op64 .div a.asF64 b.asF64)) else builtin .div a b

/-- `numeric::floor_divide` (`numeric.h` 62-70). -/
def floorDivide (a b : Val F) : Except Err (Val F) :=
  if a.et.isInt ∧ b.et.isInt then
    if common a.et b.et = .i64 then (fit 64 (Numeric.floorDivide a.asInt b.asInt)).map .i64
    else (fit 32 (Numeric.floorDivide a.asInt b.asInt)).map .i32
  else (builtin .div a b).map Val.floor

/-- `numeric::remainder` (`numeric.h` 72-79). -/
def remainder (a b : Val F) : Except Err (Val F) :=
  if b.isZero then
    match common a.et b.et with
    | .f64 => .ok (.f64 (F.widen F.nan))
    | .f32 => .ok (.f32 F.nan)
    | .i64 => .ok (.i64 0)
    | _ => .ok (.i32 0)
  else do
    let q ← floorDivide a b
    let p ← builtin .mul q b
    builtin .sub a p

/-- The numbers: `arithmetic_type_pairs` (`transform_common.h` 37) are all pairs of them. -/
def ET.isNumber : ET → Bool
  | .f64 | .f32 | .i64 | .i32 => true
  | _ => false

/-- The pairs of types for which an operation exists: `add_types_t` (`arithmetic.h` 81-88), `subtract_types_t` (90-97),
`multiplies_types_t` (99-116), `true_divide_types_t` (132-140), `floor_divide_types_t` (142-145), `remainder_types_t` (147-150). -/
def supported (op : Op) (a b : ET) : Bool :=
  match op with
  | .add => (a.isNumber && b.isNumber) || [(ET.time, ET.i64), (.time, .i32), (.i64, .time), (.i32, .time)].contains (a, b)
  | .sub => (a.isNumber && b.isNumber) || [(ET.time, ET.i64), (.time, .i32), (.time, .time)].contains (a, b)
  | .mul => (a.isNumber || decide (a = .bool)) && (b.isNumber || decide (b = .bool))
  | .div | .floorDiv | .mod => a.isNumber && b.isNumber

/-- One element of `a op b` (`add`, …, `mod`, `arithmetic.h` 152-193). -/
def binary (op : Op) (a b : Val F) : Except Err (Val F) :=
  if supported op a.et b.et = false then .error .dtype
  else
    match op with
    | .add => plus a b
    | .sub => minus a b
    | .mul => builtin .mul a b
    | .div => trueDivide a b
    | .floorDiv => floorDivide a b
    | .mod => remainder a b

/-- `add_inplace_types` (`arithmetic.h` 18-27), where a single type stands for the pair of it. -/
def addInPlace : List (ET × ET) :=
  [(.f64, .f64), (.f32, .f32), (.i64, .i64), (.i32, .i32), (.time, .i64), (.time, .i32), (.f64, .f32), (.f32, .f64), (.i64, .i32),
   (.i32, .i64), (.f64, .i64), (.f64, .i32), (.f32, .i64), (.f32, .i32), (.f64, .bool), (.i64, .bool)]

/-- `mul_inplace_types` (`arithmetic.h` 44-51). -/
def mulInPlace : List (ET × ET) :=
  [(.f64, .f64), (.f32, .f32), (.i64, .i64), (.i32, .i32), (.f64, .f32), (.f32, .f64), (.i64, .i32), (.i64, .bool), (.i32, .i64),
   (.f64, .i64), (.f64, .i32), (.f32, .i64), (.f32, .i32)]

/-- `div_inplace_types` (`arithmetic.h` 55-60). -/
def divInPlace : List (ET × ET) :=
  [(.f64, .f64), (.f32, .f32), (.f64, .f32), (.f32, .f64), (.f64, .i64), (.f64, .i32), (.f32, .i64), (.f32, .i32)]

/-- `floor_div_inplace_types` (`arithmetic.h` 62-66). -/
def floorDivInPlace : List (ET × ET) :=
  [(.f64, .f64), (.f32, .f32), (.i64, .i64), (.i32, .i32), (.f64, .f32), (.f32, .f64), (.f64, .i64), (.f64, .i32), (.f32, .i64), (.f32, .i32)]

/-- `remainder_inplace_types` (`arithmetic.h` 195-200). -/
def modInPlace : List (ET × ET) :=
  [(.f64, .f64), (.f32, .f32), (.i64, .i64), (.i32, .i32), (.f64, .f32), (.f32, .f64), (.f64, .i64), (.f64, .i32), (.f32, .i64), (.f32, .i32),
   (.i32, .i64), (.i64, .i32)]

/-- The pairs of types for which an operation in place exists. -/
def supportedInPlace (op : Op) (a b : ET) : Bool :=
  (match op with
  | .add | .sub => addInPlace
  | .mul => mulInPlace
  | .div => divInPlace
  | .floorDiv => floorDivInPlace
  | .mod => modInPlace).contains (a, b)

/-- Conversion of a 64-bit integer to 32 bits. -/
def wrap32 (n : Int) : Int := (n + 2 ^ 31) % 2 ^ 32 - 2 ^ 31

/-- Assignment of a value to an element of type `t` with the conversion of C++. Conversions from floating-point numbers to integers
do not occur. -/
def assign (t : ET) (v : Val F) : Except Err (Val F) :=
  match t, v with
  | .f64, v => .ok (.f64 v.asF64)
  | .f32, v => .ok (.f32 v.asF32)
  | .time, .time n => .ok (.time n)
  | .i64, .i64 n => .ok (.i64 n)
  | .i64, .i32 n => .ok (.i64 n)
  | .i32, .i64 n => .ok (.i32 (wrap32 n))
  | .i32, .i32 n => .ok (.i32 n)
  | _, _ => .error .logic

/-- One element of `a op= b` (`arithmetic.h` 29-30, 41-42, 68-75, 202-206; `time_point.h` 37-45): the new element. A compound assignment of
C++ converts the result of the operator to the type of the left operand. -/
def inPlace (op : Op) (a b : Val F) : Except Err (Val F) :=
  if supportedInPlace op a.et b.et = false then .error .dtype
  else
    match op with
    | .add => plus a b >>= assign a.et
    | .sub => minus a b >>= assign a.et
    | .mul => builtin .mul a b >>= assign a.et
    | .div => builtin .div a b >>= assign a.et
    | .floorDiv => floorDivide a b >>= assign a.et
    | .mod => remainder a b >>= assign a.et

end Scipp.MixedArith
