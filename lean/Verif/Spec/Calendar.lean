/-
The proleptic Gregorian calendar, and the instant that an ISO 8601 text stands
for.  Independent of the code.
-/
import Verif.Model.TimeString
import Mathlib.Algebra.Field.Rat

namespace Scipp.TimeString

/-- Every fourth year, except centuries not divisible by 400. -/
def leap (y : Int) : Bool := decide (y % 4 = 0 ∧ (y % 100 ≠ 0 ∨ y % 400 = 0))

/-- Days in the months of a year. -/
def monthLengths (y : Int) : List Nat :=
  [31, if leap y then 29 else 28, 31, 30, 31, 30, 31, 31, 30, 31, 30, 31]

/-- Days in a year. -/
def yearLength (y : Int) : Nat := (monthLengths y).sum

/-- Days from 1 January of year 1 to 1 January of year `y`. -/
def daysBefore (y : Int) : Int :=
  365 * (y - 1) + (y - 1) / 4 - (y - 1) / 100 + (y - 1) / 400

/-- A date and time of day that exists in the calendar. -/
def Civil.Valid (c : Civil) : Prop :=
  (∃ len, (monthLengths c.year)[c.month - 1]? = some len ∧ c.day ≤ len) ∧
  1 ≤ c.month ∧ 1 ≤ c.day ∧ c.hour < 24 ∧ c.minute < 60 ∧ c.second < 60

/-- Seconds from 1970-01-01T00:00:00 to the given date and time. -/
def Civil.seconds (c : Civil) : Int :=
  (daysBefore c.year - daysBefore 1970 +
      ((monthLengths c.year).take (c.month - 1)).sum + (c.day - 1)) * 86400 +
    c.hour * 3600 + c.minute * 60 + c.second

/-- The C library's `gmtime`, as far as it matters here: the date and time of day of
the given number of seconds after 1970-01-01T00:00:00. -/
def IsGmtime (gmtime : Int → Civil) : Prop :=
  ∀ t, (gmtime t).Valid ∧ (gmtime t).seconds = t

/-- The value of a decimal digit. -/
def digit? (c : Char) : Option Nat :=
  if '0' ≤ c ∧ c ≤ '9' then some (c.toNat - '0'.toNat) else none

/-- The number a text of decimal digits stands for, read from the left after the
number `acc`. -/
def readFrom (acc : Nat) : List Char → Option Nat
  | [] => some acc
  | c :: cs => match digit? c with
    | some d => readFrom (acc * 10 + d) cs
    | none => none

/-- The instant, in seconds since 1970, that an ISO 8601 text stands for: the
date and time plus the decimal fraction. `none` if the fraction is not made of
decimal digits. -/
def instant : Civil × Option (List Char) → Option ℚ
  | (c, none) => some c.seconds
  | (c, some f) => (readFrom 0 f).map fun n : Nat => (c.seconds : ℚ) + (n : ℚ) / 10 ^ f.length

/-- Length of the unit in seconds. -/
def TUnit.seconds : TUnit → ℚ
  | .ns => 1 / 10 ^ 9
  | .us => 1 / 10 ^ 6
  | .ms => 1 / 10 ^ 3
  | .s => 1
  | .min => 60
  | .hr => 3600
  | _ => 0

/-- The units of time points that can be printed. -/
def TUnit.Printable (u : TUnit) : Prop := u ≠ .coarse ∧ u ≠ .other

end Scipp.TimeString
