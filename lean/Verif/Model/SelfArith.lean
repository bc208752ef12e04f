import Verif.Model.Special
/-!
Operations of a variable with variances with itself (`lib/variable/arithmetic.cpp`): the result is computed by another operation that accounts for the
correlation. Units and special values; the propagation of finite variances is in `Verif.Model.ValueAndVariance`.
-/
namespace Scipp.SelfArith
open Scipp Special Ext

/-- The four operations. -/
inductive Op where
  | add | sub | mul | div
deriving DecidableEq

/-- Division of IEEE numbers, used by `operator/` (`value_and_variance.h` 157-164). A single zero, taken as positive. -/
def div : Ext → Ext → Ext
  | nan, _ => nan
  | _, nan => nan
  | fin p, fin q => if q = 0 then infOfSign p else fin (p / q)
  | fin _, _ => fin 0
  | pinf, fin q => if q = 0 then pinf else infOfSign q
  | ninf, fin q => if q = 0 then ninf else infOfSign (-q)
  | _, _ => nan

/-- The operators of `ValueAndVariance` (`value_and_variance.h` 140-164), for different operands. -/
def plain (op : Op) (a b : ExtVV) : ExtVV :=
  match op with
  | .add => ⟨a.value.add b.value, a.variance.add b.variance⟩
  | .sub => ⟨a.value.sub b.value, a.variance.add b.variance⟩
  | .mul => ⟨a.value.mul b.value, ((a.variance.mul b.value).mul b.value).add ((b.variance.mul a.value).mul a.value)⟩
  | .div => ⟨div a.value b.value, div (a.variance.add (div (b.variance.mul (a.value.mul a.value)) (b.value.mul b.value))) (b.value.mul b.value)⟩

/-- `operator*` with a number (`value_and_variance.h` 184-187). -/
def mulScalar (a : ExtVV) (s : ℚ) : ExtVV := ⟨a.value.mul (fin s), (a.variance.mul (fin s)).mul (fin s)⟩

/-- `std::pow(x, 1)` and `std::pow(x, -1)`, as needed for exponents 2 and 0. -/
def powMinusOne (exponent : Nat) (x : Ext) : Ext := if exponent = 2 then x else div (fin 1) x

/-- `pow` of a `ValueAndVariance` (`value_and_variance.h` 70-79) for the exponents 0 and 2. -/
def selfPow (a : ExtVV) (exponent : Nat) : ExtVV :=
  let pow1 := powMinusOne exponent a.value
  let varFactor := (fin exponent).mul pow1
  let pow0 := if a.value = fin 0 ∧ exponent = 0 then fin 1 else if a.value = fin 0 ∧ 0 < exponent then fin 0 else pow1.mul a.value
  ⟨pow0, (varFactor.mul varFactor).mul a.variance⟩

/-- One element of an operation of a variable with itself, `correlated(a, b)` (`arithmetic.cpp` 31-34, 38-68). -/
def self (op : Op) (a : ExtVV) : ExtVV :=
  match op with
  | .add => mulScalar a 2
  | .sub => mulScalar a 0
  | .mul => selfPow a 2
  | .div => selfPow a 0

variable {n : Nat}

/-- The unit for different operands (`unit.cpp` 89-129). -/
def plainUnit (r : ExpRange n) (op : Op) (u w : MUnit n) : Except Err (MUnit n) :=
  match op with
  | .add => u.add w
  | .sub => u.sub w
  | .mul => u.mul r w
  | .div => u.div r w

/-- The unit of `make_factor` (`arithmetic.cpp` 22-28). -/
def factorUnit (u : MUnit n) : MUnit n := if u = none then none else MUnit.one

/-- The unit of `pow` with a scalar exponent (`pow.cpp` 51-78). -/
def powUnit (r : ExpRange n) (u expUnit : MUnit n) (exponent : Nat) : Except Err (MUnit n) :=
  if expUnit ≠ MUnit.one then .error .unit
  else if u = MUnit.one then .ok MUnit.one
  else u.pow r exponent

/-- The unit of an operation of a variable with itself (`arithmetic.cpp` 38-68). -/
def selfUnit (r : ExpRange n) (op : Op) (u : MUnit n) : Except Err (MUnit n) :=
  match op with
  | .add | .sub => u.mul r (factorUnit u)
  | .mul => powUnit r u (factorUnit u) 2
  | .div => powUnit r u (factorUnit u) 0

end Scipp.SelfArith
