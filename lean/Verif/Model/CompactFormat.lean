import Verif.Model.Numeric
/-
Compact text of values with uncertainties, e.g. `1.23(4)` (`src/scipp/format/formatter.py`).

Numbers are rational, without rounding to `double`. Text of a number is given by its digits as integer and the number of decimals.
-/
namespace Scipp.CompactFormat
open Scipp.Numeric

/-- The text of an element: `plain` is the value in full; otherwise digits of the value as integer, number of decimals, and the integer in parentheses (`src/scipp/format/formatter.py` 220-235). -/
inductive Text where
  | plain (value : ℚ)
  | digits (mantissa : Int) (decimals : Nat) (error : Int)
deriving DecidableEq

/-- The precision: power of ten of the last digit (`src/scipp/format/formatter.py` 194-201). -/
def precision (error : ℚ) : Int :=
  let p := Int.log 10 error
  if roundHalfEven (error * 10 ^ (-p)) = 1 then p - 1 else p

/-- `_round` (`src/scipp/format/formatter.py` 182-217): value, error and precision. `sqrt` is the square root. -/
def roundTo (sqrt : ℚ → ℚ) (value : ℚ) (variance : Option ℚ) : ℚ × Option (Int × Int) :=
  match variance with
  | none => (value, none)
  | some var =>
    if var = 0 then (value, none)
    else
      let error := sqrt var
      let p := precision error
      let e := roundHalfEven (error * 10 ^ (-p))
      let v : ℚ := roundHalfEven (value * 10 ^ (-p)) * 10 ^ p
      (v, some (if p > -1 then e * 10 ^ p.toNat else e, p))

/-- `_format_element_compact` (`src/scipp/format/formatter.py` 220-235): format `0.<n>f` with `n = max(0, -precision)` decimals. -/
def formatElement (value : ℚ) (error : Option (Int × Int)) : Text :=
  match error with
  | none => .plain value
  | some (e, p) => .digits (roundHalfEven (value * 10 ^ (max 0 (-p)).toNat)) (max 0 (-p)).toNat e

/-- The text of an element with its variance (`src/scipp/format/formatter.py` 171-174). -/
def compact (sqrt : ℚ → ℚ) (value : ℚ) (variance : Option ℚ) : Text :=
  let r := roundTo sqrt value variance
  formatElement r.1 r.2

end Scipp.CompactFormat
