import Verif.Model.Numeric
import Verif.Model.Unit
/-
Model of `lib/variable/to_unit.cpp` and `lib/core/include/scipp/core/element/to_unit.h` for integers and datetimes. `double` is modelled by
rational numbers with `roundDouble` after every operation (IEEE binary64, round to nearest even, range of the exponent not limited).
-/
namespace Scipp.ToUnit
open Scipp.Numeric

/-- Truncation towards zero, the conversion of a floating-point number to an integer in `safe_cast` (`element/to_unit.h` 26). -/
def trunc (y : ℚ) : Int := if 0 ≤ y then ⌊y⌋ else ⌈y⌉

/-- `safe_cast` to a signed integer of `bits` bits (`element/to_unit.h` 20-30) for a finite argument: `frexp` gives an exponent of at most
`bits - 1` iff the absolute value is below `2^(bits - 1)`. -/
def safeCast (bits : Nat) (y : ℚ) : Int :=
  if |y| < 2 ^ (bits - 1) then trunc y
  else if y < 0 then -2 ^ (bits - 1) else 2 ^ (bits - 1) - 1

/-- `round` to an integer (`element/to_unit.h` 32-38) for an argument that is a `double`. -/
def roundDbl (bits : Nat) (y : ℚ) : Int := safeCast bits (roundDouble (if y < 0 then y - 1 / 2 else y + 1 / 2))

/-- `round` to an integer (`element/to_unit.h` 32-38) for an argument that is an integer: adding `0.5` converts it to `double` first. -/
def roundInt (bits : Nat) (x : Int) : Int :=
  safeCast bits (roundDouble (if x < 0 then roundDouble x - 1 / 2 else roundDouble x + 1 / 2))

/-- The conversion factor, an `int64_t` or a `double` (`to_unit.cpp` 52-65). -/
inductive Factor where
  | int (k : Int)
  | dbl (s : ℚ)
  deriving DecidableEq

/-- `std::round` of a non-negative number (`to_unit.cpp` 56): nearest integer, ties away from zero. -/
def stdRound (y : ℚ) : Int := ⌊y + 1 / 2⌋

/-- `base_scale` (`to_unit.cpp` 55). -/
def baseScale (scale : ℚ) : ℚ := if scale > 1000000 then roundDouble (scale * roundDouble (1 / 1000000)) else scale

/-- Choice of the factor (`to_unit.cpp` 52-65); `int64` is true for `int64_t` and datetimes. `scale` is positive. -/
def factor (int64 : Bool) (scale : ℚ) : Factor :=
  let base := baseScale scale
  let iscale := stdRound base
  let pre : Int := if scale > 1000000 then 1000000 else 1
  if |roundDouble (base - iscale)| < roundDouble (roundDouble (1 / 1000000000000) * |base|) then
    if int64 then .int (pre * iscale) else .dbl (roundDouble (pre * iscale))
  else .dbl scale

/-- Signed 64-bit range (`int64_t`, `to_unit.cpp` 59-60). -/
def fitsInt64 (x : Int) : Prop := -2 ^ 63 ≤ x ∧ x < 2 ^ 63

instance (x : Int) : Decidable (fitsInt64 x) := inferInstanceAs (Decidable (_ ∧ _))

/-- `element::to_unit` for an integer of `bits` bits or a datetime (`element/to_unit.h` 48-50, 60-62). The product of integers that
overflows is undefined. -/
def convert (bits : Nat) (f : Factor) (x : Int) : Except Err Int :=
  match f with
  | .int k => if fitsInt64 (x * k) then .ok (roundInt bits (x * k)) else .error .ub
  | .dbl s => .ok (roundDbl bits (roundDouble (roundDouble x * s)))

/-- Element types with integral values (`element/to_unit.h` 42-47). -/
inductive IntType where
  | int32
  | int64
  | timePoint
  deriving DecidableEq

/-- Number of bits (`sizeof` in `element/to_unit.h` 25). -/
def IntType.bits : IntType → Nat
  | .int32 => 32
  | _ => 64

variable {n : Nat}

/-- `llnl::units::quick_convert` (called in `to_unit.cpp` 37-38; the units library is not part of the repository): the ratio of the
multipliers, NaN (`none`) if the base units differ. -/
def quickConvert (a b : PreciseUnit n) : Option ℚ := if a.exps = b.exps then some (roundDouble (a.mult / b.mult)) else none

/-- `greater_than_days` (`to_unit.cpp` 18-27); `sec` is the unit of seconds, so a day has the multiplier 86400. -/
def greaterThanDays (sec : Fin n → Int) (u : PreciseUnit n) : Except Err Bool :=
  if u.exps ≠ sec then .error .unit else .ok (decide (u.mult ≥ 86400))

/-- `to_unit` (`to_unit.cpp` 30-67) for a variable with integral elements, given as the list of its elements. The policy for copying is not
modelled (see C52). -/
def toUnit (sec : Fin n → Int) (dtype : IntType) (values : List Int) (varUnit unit : MUnit n) : Except Err (List Int × MUnit n) :=
  if unit = varUnit then .ok (values, varUnit)
  else match varUnit, unit with
    | some a, some b =>
      match quickConvert a b with
      | none => .error .unit
      | some scale => do
        if dtype = .timePoint then
          if ← greaterThanDays sec a then throw .unit
          if ← greaterThanDays sec b then throw .unit
        let out ← values.mapM (convert dtype.bits (factor (dtype ≠ .int32) scale))
        return (out, unit)
    | _, _ => .error .unit

end Scipp.ToUnit
