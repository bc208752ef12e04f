import Mathlib.Analysis.SpecialFunctions.Pow.Real
/-
Model of `lib/core/include/scipp/core/value_and_variance.h`: propagation of uncertainties. Numbers are real numbers; rounding, infinities and
NaN are not modelled, so that statements about division assume non-zero divisors.
-/
namespace Scipp

/-- `ValueAndVariance` (`value_and_variance.h` 21-64). -/
@[ext] structure VV where
  value : ℝ
  variance : ℝ

noncomputable section
namespace VV

/-- `operator-(a)` (65-68). -/
def neg (a : VV) : VV := ⟨-a.value, a.variance⟩

/-- `operator+(a, b)` (140-144). -/
def add (a b : VV) : VV := ⟨a.value + b.value, a.variance + b.variance⟩

/-- `operator-(a, b)` (145-149). -/
def sub (a b : VV) : VV := ⟨a.value - b.value, a.variance + b.variance⟩

/-- `operator*(a, b)` (150-156). -/
def mul (a b : VV) : VV :=
  ⟨a.value * b.value, a.variance * b.value * b.value + b.variance * a.value * a.value⟩

/-- `operator/(a, b)` (157-164). -/
def div (a b : VV) : VV :=
  ⟨a.value / b.value, (a.variance + b.variance * (a.value * a.value) / (b.value * b.value)) / (b.value * b.value)⟩

/-- `operator+(a, T2 b)` (166-169). -/
def addScalar (a : VV) (b : ℝ) : VV := ⟨a.value + b, a.variance⟩

/-- `operator+(T2 a, b)` (170-173). -/
def scalarAdd (a : ℝ) (b : VV) : VV := ⟨a + b.value, b.variance⟩

/-- `operator-(a, T2 b)` (174-177). -/
def subScalar (a : VV) (b : ℝ) : VV := ⟨a.value - b, a.variance⟩

/-- `operator-(T2 a, b)` (178-181). -/
def scalarSub (a : ℝ) (b : VV) : VV := ⟨a - b.value, b.variance⟩

/-- `operator*(a, T2 b)` (182-186). -/
def mulScalar (a : VV) (b : ℝ) : VV := ⟨a.value * b, a.variance * b * b⟩

/-- `operator*(T1 a, b)` (187-191). -/
def scalarMul (a : ℝ) (b : VV) : VV := ⟨a * b.value, b.variance * a * a⟩

/-- `operator/(a, T2 b)` (192-202). -/
def divScalar (a : VV) (b : ℝ) : VV := ⟨a.value / b, a.variance / (b * b)⟩

/-- `operator/(T1 a, b)` (203-208). -/
def scalarDiv (a : ℝ) (b : VV) : VV :=
  ⟨a / b.value, b.variance * a * a / (b.value * b.value) / (b.value * b.value)⟩

/-- `sqrt` (80-84). -/
def sqrt (a : VV) : VV := ⟨Real.sqrt a.value, 0.25 * (a.variance / a.value)⟩

/-- `abs` (86-89). -/
def abs (a : VV) : VV := ⟨|a.value|, a.variance⟩

/-- `exp` (91-95). -/
def exp (a : VV) : VV := ⟨Real.exp a.value, Real.exp a.value * Real.exp a.value * a.variance⟩

/-- `log` (97-100). -/
def log (a : VV) : VV := ⟨Real.log a.value, a.variance / (a.value * a.value)⟩

/-- `log10` (102-107). -/
def log10 (a : VV) : VV :=
  let x := a.value * Real.log 10
  ⟨Real.log a.value / Real.log 10, a.variance / (x * x)⟩

/-- `pow` (70-78) with an integer exponent (`numeric::pow`, `lib/common/include/scipp/common/numeric.h`; `std::pow` for floating-point numbers of integral value). -/
def powInt (base : VV) (exponent : ℤ) : VV :=
  let pow1 := base.value ^ (exponent - 1)
  let varFactor := |(exponent : ℝ)| * pow1
  let pow0 := if base.value = 0 ∧ exponent = 0 then 1 else if base.value = 0 ∧ 0 < exponent then 0 else pow1 * base.value
  ⟨pow0, varFactor * varFactor * base.variance⟩

/-- `pow` (70-78) with a real exponent. -/
def powReal (base : VV) (exponent : ℝ) : VV :=
  let pow1 := base.value ^ (exponent - 1)
  let varFactor := |exponent| * pow1
  let pow0 := if base.value = 0 ∧ exponent = 0 then 1 else if base.value = 0 ∧ 0 < exponent then 0 else pow1 * base.value
  ⟨pow0, varFactor * varFactor * base.variance⟩

/-- `min` (`value_and_variance.h` 298-302). -/
def min (a b : VV) : VV := if a.value < b.value then a else b

/-- `max` (303-307). -/
def max (a b : VV) : VV := if a.value > b.value then a else b

/-- One element of `operator+(Variable, Variable)` (`lib/variable/arithmetic.cpp` 38-42). `same` is `correlated(a, b)` (31-34): both operands have variances and are the
same variable. -/
def varAdd (same : Bool) (a b : VV) : VV := if same then mulScalar a 2 else add a b

/-- `operator-` (`arithmetic.cpp` 44-48). -/
def varSub (same : Bool) (a b : VV) : VV := if same then mulScalar a 0 else sub a b

/-- `operator*` (`arithmetic.cpp` 50-62) for scalar elements. -/
def varMul (same : Bool) (a b : VV) : VV := if same then powInt a 2 else mul a b

/-- `operator/` (`arithmetic.cpp` 64-68). -/
def varDiv (same : Bool) (a b : VV) : VV := if same then powInt a 0 else div a b

end VV
end
end Scipp
