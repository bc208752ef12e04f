import Verif.Model.Unit
import Verif.Model.ToUnit
import Verif.Model.ValueAndVariance
import Mathlib.Algebra.Order.Floor.Defs
/-
Model of the element-wise functions of floating-point numbers together with the units they give to their results: `lib/units/unit.cpp` 131-221,
`lib/core/include/scipp/core/element/{arithmetic,math,trigonometry,hyperbolic,comparison,util,to_unit}.h` and
`lib/cmake/scipp-functions.cmake`. Numbers are real numbers: rounding, infinities and NaN are not modelled. The functions of the C++ standard library
that are not algebraic (sine, error function, ...) are arbitrary functions.
-/
namespace Scipp.UnitFn

/-- An element handed to an operation: a value, or a value with a variance (`transform.h` 166-183: `ValueAndVariance` if the operand has variances). -/
inductive Num where
  | plain (value : ℝ)
  | pair (x : VV)

/-- An element with the unit of its variable (`Variable::unit`). -/
structure Qty (n : Nat) where
  num : Num
  unit : MUnit n

/-- Transcendental functions of `std` applied to elements: `sin`, `cos`, `tan` (`trigonometry.h` 19-32). -/
inductive Trig where
  | sin | cos | tan

/-- `asin`, `acos`, `atan` (`trigonometry.h` 34-47). -/
inductive InvTrig where
  | asin | acos | atan

/-- Functions of dimensionless numbers that accept no variances: `erf`, `erfc` (`math.h` 155-167) and the hyperbolic functions (`hyperbolic.h` 15-50). -/
inductive Special where
  | erf | erfc | sinh | cosh | tanh | asinh | acosh | atanh

/-- What the standard library and the units library provide: the transcendental functions, the units `units::rad` and `units::deg` (`unit.h`), the
representable exponents and the square root of multipliers. -/
structure Lib (n : Nat) where
  trig : Trig → ℝ → ℝ
  inv : InvTrig → ℝ → ℝ
  special : Special → ℝ → ℝ
  atan2 : ℝ → ℝ → ℝ
  rint : ℝ → ℝ
  rad : PreciseUnit n
  deg : PreciseUnit n
  range : ExpRange n
  root : ℚ → ℚ

/-- Unary functions of variables. -/
inductive Unary (n : Nat) where
  | neg | abs | sqrt | reciprocal
  | pow (p : Int)
  | exp | log | log10
  | special (f : Special)
  | trig (f : Trig)
  | inv (f : InvTrig)
  | floor | ceil | rint
  | values | variances | stddevs
  | toUnit (target : MUnit n)

/-- Binary functions of variables. -/
inductive Binary where
  | add | sub | mul | div | floorDivide | mod | atan2 | midpoint

/-- Comparisons (`comparison.h` 86-115). -/
inductive Compare where
  | less | greater | lessEqual | greaterEqual | equal | notEqual

section
variable {n : Nat}

/-- `expect_no_variance_arg` (`transform_common.h`): the value of an element without variance. -/
def Num.noVariance : Num → Except Err ℝ
  | .plain v => .ok v
  | .pair _ => .error .variances

/-- `expect_variance_arg` (`transform_common.h`): the element with its variance. -/
def Num.withVariance : Num → Except Err VV
  | .plain _ => .error .variances
  | .pair x => .ok x

/-- The value of an element (`element::values`, `util.h` 30-43). -/
def Num.value : Num → ℝ
  | .plain v => v
  | .pair x => x.value

/-- `dimensionless_unit_check_return` (`transform_common.h` 45-60), `hyperbolic` (`unit.cpp` 202-208). -/
def dimensionless (u : MUnit n) : Except Err (MUnit n) := if u = MUnit.one then .ok MUnit.one else .error .unit

/-- `trigonometric` (`unit.cpp` 166-171). -/
def trigonometric (l : Lib n) (u : MUnit n) : Except Err (MUnit n) :=
  if u = some l.rad ∨ u = some l.deg then .ok MUnit.one else .error .unit

/-- `inverse_trigonometric` (`unit.cpp` 173-179). -/
def inverseTrigonometric (l : Lib n) (u : MUnit n) : Except Err (MUnit n) := if u = MUnit.one then .ok (some l.rad) else .error .unit

/-- `atan2` of units (`unit.cpp` 187-195). -/
def atan2Unit (l : Lib n) : MUnit n → MUnit n → Except Err (MUnit n)
  | none, _ => .error .unit
  | some _, none => .error .unit
  | some a, some b => if a = b then .ok (some l.rad) else .error .unit

/-- The factor of `to_unit` for floating-point numbers (`to_unit.cpp` 53-66): a factor very close to an integer is taken to be that integer. -/
def scaleFactor (scale : ℚ) : ℚ :=
  let base := if scale > 1000000 then scale * (1 / 1000000) else scale
  let iscale : ℚ := ToUnit.stdRound base
  if |base - iscale| < 1 / 1000000000000 * |base| then (if scale > 1000000 then 1000000 else 1) * iscale else scale

end

noncomputable section
variable {n : Nat}

/-- Multiplying an element by a number without variance (`x * scale` in `to_unit.h` 60-62; `value_and_variance.h` 182-186). -/
def Num.times : Num → ℝ → Num
  | .plain v, s => .plain (v * s)
  | .pair x, s => .pair (x.mulScalar s)

/-- `to_unit` (`to_unit.cpp` 30-68) for floating-point numbers. `quick_convert` of the units library yields NaN if the units have different base units. -/
def convert (q : Qty n) (target : MUnit n) : Except Err (Qty n) :=
  if target = q.unit then .ok q
  else
    match q.unit, target with
    | some u, some t => if u.exps = t.exps then .ok ⟨q.num.times (scaleFactor (u.mult / t.mult)), some t⟩ else .error .unit
    | _, _ => .error .unit

/-- A unary function on an element, with the function on its unit: negation, `abs` (`math.h` 50-54), `sqrt` (90-93), `reciprocal` (105-108), `pow` with an
integer exponent (61-71 and `variable/pow.cpp` 58-78), `exp`, `log`, `log10` (110-129), `erf` etc. (155-167), `sin` etc. (`trigonometry.h`, preceded by
`to_unit(var, units::rad)` according to `scipp-functions.cmake` 39-41), `floor` etc. (131-153), `values`, `variances` and `stddevs` (`util.h` 30-69), `to_unit`. Which error is raised if there are
several reasons is not modelled. -/
def Unary.run (l : Lib n) : Unary n → Qty n → Except Err (Qty n)
  | .neg, q => .ok ⟨match q.num with | .plain v => .plain (-v) | .pair x => .pair x.neg, q.unit⟩
  | .abs, q => .ok ⟨match q.num with | .plain v => .plain |v| | .pair x => .pair x.abs, q.unit⟩
  | .sqrt, q => (MUnit.sqrt l.root q.unit).map fun u => ⟨match q.num with | .plain v => .plain (Real.sqrt v) | .pair x => .pair x.sqrt, u⟩
  | .reciprocal, q => (MUnit.div l.range MUnit.one q.unit).map fun u =>
      ⟨match q.num with | .plain v => .plain (1 / v) | .pair x => .pair (VV.scalarDiv 1 x), u⟩
  | .pow p, q => (MUnit.pow l.range q.unit p).map fun u => ⟨match q.num with | .plain v => .plain (v ^ p) | .pair x => .pair (x.powInt p), u⟩
  | .exp, q => (dimensionless q.unit).map fun u => ⟨match q.num with | .plain v => .plain (Real.exp v) | .pair x => .pair x.exp, u⟩
  | .log, q => (dimensionless q.unit).map fun u => ⟨match q.num with | .plain v => .plain (Real.log v) | .pair x => .pair x.log, u⟩
  | .log10, q => (dimensionless q.unit).map fun u =>
      ⟨match q.num with | .plain v => .plain (Real.log v / Real.log 10) | .pair x => .pair x.log10, u⟩
  | .special f, q => do
    let v ← q.num.noVariance
    let u ← dimensionless q.unit
    .ok ⟨.plain (l.special f v), u⟩
  | .trig f, q => do
    let p ← convert q (some l.rad)
    let v ← p.num.noVariance
    let u ← trigonometric l p.unit
    .ok ⟨.plain (l.trig f v), u⟩
  | .inv f, q => do
    let v ← q.num.noVariance
    let u ← inverseTrigonometric l q.unit
    .ok ⟨.plain (l.inv f v), u⟩
  | .floor, q => do let v ← q.num.noVariance; .ok ⟨.plain (⌊v⌋ : ℝ), q.unit⟩
  | .ceil, q => do let v ← q.num.noVariance; .ok ⟨.plain (⌈v⌉ : ℝ), q.unit⟩
  | .rint, q => do let v ← q.num.noVariance; .ok ⟨.plain (l.rint v), q.unit⟩
  | .values, q => .ok ⟨.plain q.num.value, q.unit⟩
  | .variances, q => do
    let x ← q.num.withVariance
    let u ← MUnit.mul l.range q.unit q.unit
    .ok ⟨.plain x.variance, u⟩
  | .stddevs, q => do let x ← q.num.withVariance; .ok ⟨.plain (Real.sqrt x.variance), q.unit⟩
  | .toUnit t, q => convert q t

/-- The overloads of an arithmetic operation for elements with and without variances (`value_and_variance.h` 140-208). -/
def arith (pp : ℝ → ℝ → ℝ) (vv : VV → VV → VV) (vs : VV → ℝ → VV) (sv : ℝ → VV → VV) : Num → Num → Num
  | .plain a, .plain b => .plain (pp a b)
  | .pair a, .pair b => .pair (vv a b)
  | .pair a, .plain b => .pair (vs a b)
  | .plain a, .pair b => .pair (sv a b)

/-- `numeric::floor_divide` (`lib/common/include/scipp/common/numeric.h` 63-70) for a non-zero divisor. -/
def floorDiv (a b : ℝ) : ℝ := (⌊a / b⌋ : ℝ)

/-- `numeric::remainder` (`numeric.h` 72-79) for a non-zero divisor. -/
def remainder (a b : ℝ) : ℝ := a - floorDiv a b * b

/-- A binary function of two elements that accept no variances. -/
def plain2 (f : ℝ → ℝ → ℝ) (a b : Num) : Except Err Num := do
  let x ← a.noVariance
  let y ← b.noVariance
  .ok (.plain (f x y))

/-- A binary function on elements, with the function on their units: `add`, `subtract`, `multiply` (`arithmetic.h` 152-160 with the operators of `unit.cpp`
89-118), `divide` (174-179), `floor_divide` (181-186),
`mod` (188-193), `atan2` (`trigonometry.h` 49-52), `midpoint` (`math.h` 178-194). Which error is raised if there are several reasons is not modelled. -/
def Binary.run (l : Lib n) : Binary → Qty n → Qty n → Except Err (Qty n)
  | .add, a, b => (MUnit.add a.unit b.unit).map fun u => ⟨arith (· + ·) VV.add VV.addScalar VV.scalarAdd a.num b.num, u⟩
  | .sub, a, b => (MUnit.sub a.unit b.unit).map fun u => ⟨arith (· - ·) VV.sub VV.subScalar VV.scalarSub a.num b.num, u⟩
  | .mul, a, b => (MUnit.mul l.range a.unit b.unit).map fun u => ⟨arith (· * ·) VV.mul VV.mulScalar VV.scalarMul a.num b.num, u⟩
  | .div, a, b => (MUnit.div l.range a.unit b.unit).map fun u => ⟨arith (· / ·) VV.div VV.divScalar VV.scalarDiv a.num b.num, u⟩
  | .floorDivide, a, b => do
    let x ← plain2 floorDiv a.num b.num
    let u ← MUnit.div l.range a.unit b.unit
    .ok ⟨x, u⟩
  | .mod, a, b => do
    let x ← plain2 remainder a.num b.num
    let u ← MUnit.mod a.unit b.unit
    .ok ⟨x, u⟩
  | .atan2, a, b => do
    let x ← plain2 l.atan2 a.num b.num
    let u ← atan2Unit l a.unit b.unit
    .ok ⟨x, u⟩
  | .midpoint, a, b => do
    let x ← plain2 (fun x y => (x + y) / 2) a.num b.num
    let u ← MUnit.add a.unit b.unit
    .ok ⟨x, u⟩

/-- The relation tested by a comparison; variances are ignored (`value_and_variance.h` 210-296). -/
def Compare.holds : Compare → ℝ → ℝ → Prop
  | .less, x, y => x < y
  | .greater, x, y => x > y
  | .lessEqual, x, y => x ≤ y
  | .greaterEqual, x, y => x ≥ y
  | .equal, x, y => x = y
  | .notEqual, x, y => ¬x = y

/-- A comparison (`comparison.h` 73-115): the outcome, or `UnitError` for different units. -/
def Compare.run (c : Compare) (a b : Qty n) : Except Err Prop :=
  if a.unit = b.unit then .ok (c.holds a.num.value b.num.value) else .error .unit

/-- `isclose` (`comparison.h` 28-40) for values without variances. -/
def isclose (a b t : Qty n) : Except Err Prop :=
  if a.unit = b.unit then if a.unit = t.unit then .ok (|a.num.value - b.num.value| ≤ t.num.value) else .error .unit else .error .unit

/-- A calculation composed of these functions (not in the code: stands for a user's program). -/
inductive Expr (n : Nat) where
  | input (i : Nat)
  | un (f : Unary n) (e : Expr n)
  | bin (f : Binary) (e₁ e₂ : Expr n)

/-- Carrying out a calculation on the elements `env`; the first error ends it. -/
def Expr.eval (l : Lib n) (env : Nat → Qty n) : Expr n → Except Err (Qty n)
  | .input i => .ok (env i)
  | .un f e => do let q ← e.eval l env; f.run l q
  | .bin f e₁ e₂ => do
    let a ← e₁.eval l env
    let b ← e₂.eval l env
    f.run l a b

end
end Scipp.UnitFn
