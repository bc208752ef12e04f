import Verif.Model.SubbinSizes
import Mathlib.Algebra.Order.Group.Unbundled.Abs
import Mathlib.Algebra.Order.Ring.Rat
import Mathlib.Data.Int.Log
import Mathlib.Data.Rat.Floor
/-
Model of `lib/common/include/scipp/common/numeric.h`: `islinspace`, `isarange`, `floor_divide`, `remainder` and
integer powers. Integers are unbounded (overflow of differences is not modelled), floating-point numbers are rationals with exact
arithmetic unless said otherwise.
-/
namespace Scipp.Numeric

/-- `std::adjacent_find(range.begin(), range.end(), pred) != range.end()`. -/
def adjacentFind {α : Type} (pred : α → α → Bool) : List α → Bool
  | a :: b :: rest => pred a b || adjacentFind pred (b :: rest)
  | _ => false

/-- `islinspace` for integers (`numeric.h` 16-21, 33-39). Access to `range[1]` is in bounds due to the check of the size. -/
def islinspaceInt (range : List Int) : Bool :=
  match range, range.getLast? with
  | front :: second :: _, some back =>
    if back ≤ front then false
    else
      let delta := second - front
      !adjacentFind (fun a b => |b - a| != delta) range
  | _, _ => false

/-- `islinspace` for floating-point numbers (`numeric.h` 16-32) in exact arithmetic. `u` is
`std::numeric_limits<T>::epsilon()`. -/
def islinspaceRat (u : ℚ) (range : List ℚ) : Bool :=
  match range, range.getLast? with
  | front :: _ :: _, some back =>
    if back ≤ front then false
    else
      let delta := (back - front) / ((range.length : ℚ) - 1)
      let epsilon := u * (|front| + |back|) * 4
      !adjacentFind (fun a b => decide (epsilon < abs (|b - a| - delta))) range
  | _, _ => false

/-- `isarange` (`numeric.h` 42-52). -/
def isarange (range : List Int) : Bool :=
  match range, range.getLast? with
  | front :: _ :: _, some back =>
    if back ≤ front then false
    else !adjacentFind (fun a b => |b - a| != 1) range
  | _, _ => true

/-- Rounding to the nearest integer, ties to even. -/
def roundHalfEven (x : ℚ) : Int :=
  let f := ⌊x⌋
  if x - f < 1 / 2 then f
  else if 1 / 2 < x - f then f + 1
  else if f % 2 = 0 then f
  else f + 1

/-- Rounding of a number to the nearest `double` (IEEE 754 binary64, round to nearest, ties to even), i.e. to 53 significant bits.
Simplification: the range of the exponent is unlimited; the numbers occurring in `floor_divide` of 64-bit integers are well inside the
range of exponents of `double`. -/
def roundDouble (x : ℚ) : ℚ :=
  if x = 0 then 0
  else
    let e := Int.log 2 |x| - 52
    roundHalfEven (x / 2 ^ e) * 2 ^ e

/-- `floor_divide` of integers (`numeric.h` 63-70): `floor(static_cast<double>(a) / static_cast<double>(b))`. The
conversion back to an integer is exact if in range (overflow is not modelled). -/
def floorDivide (a b : Int) : Int :=
  if b = 0 then 0 else ⌊roundDouble (roundDouble a / roundDouble b)⌋

/-- `remainder` of integers (`numeric.h` 73-79). -/
def remainder (a b : Int) : Int :=
  if b = 0 then 0 else a - floorDivide a b * b

/-- `integer_pow_pos_exponent` (`numeric.h` 81-97), `one` and `mul` of the type of the base. -/
def integerPow {M : Type} [One M] [Mul M] (base : M) (exponent : Nat) : M :=
  if _h0 : exponent = 0 then 1
  else if _h1 : exponent = 1 then base
  else
    let aux := integerPow base (exponent / 2)
    if exponent % 2 = 0 then aux * aux else base * aux * aux
termination_by exponent

/-- `pow` with an integer exponent (`numeric.h` 99-107). `/` is the division of the type of the base. -/
def powInt {M : Type} [One M] [Mul M] [Div M] (base : M) (exponent : Int) : M :=
  if 0 ≤ exponent then integerPow base exponent.toNat
  else 1 / integerPow base (-exponent).toNat

end Scipp.Numeric
