/-
Model of the text representation of time points and arrays:
`/repo/lib/core/string.cpp` (`num_digits`, `put_time`, `to_string(duration)`,
`to_iso_date`) and the shortening of long arrays in
`/repo/lib/core/include/scipp/core/array_to_string.h`.
-/
import Verif.Model.Sizes
import Mathlib.Data.Nat.Digits.Defs

namespace Scipp.TimeString

/-- Broken-down time, the part of `std::tm` that `"%FT%T"` prints, in calendar
numbering (`tm_year + 1900`, `tm_mon + 1`); /repo/lib/core/string.cpp lines
100-108 (`put_time`).  Simplification: the printed text of these six numbers is
represented by the numbers themselves. -/
structure Civil where
  year : Int
  month : Nat
  day : Nat
  hour : Nat
  minute : Nat
  second : Nat
  deriving DecidableEq, Repr

/-- The units distinguished by `to_iso_date`
(/repo/lib/core/string.cpp lines 138-157); `other` stands for every unit
not named there, `coarse` for day, month and year. -/
inductive TUnit where
  | ns | us | ms | s | min | hr | coarse | other
  deriving DecidableEq, Repr

/-- `Period::den / Period::num` of the sub-second `std::chrono` durations; 1 for
seconds and longer (/repo/lib/core/string.cpp lines 130-133, 140-151). -/
def TUnit.den : TUnit → Nat
  | .ns => 1000000000
  | .us => 1000000
  | .ms => 1000
  | _ => 1

/-- `Period::num` of the durations of a second and longer
(/repo/lib/core/string.cpp lines 142-151). -/
def TUnit.num : TUnit → Nat
  | .min => 60
  | .hr => 3600
  | _ => 1

/-- The loop of `num_digits` (/repo/lib/core/string.cpp lines 91-93) with `i`
the loop variable; `fuel` bounds the number of iterations (the loop multiplies
`i` by ten, 20 iterations exceed every 64-bit denominator). -/
def numDigitsLoop (den : Nat) : Nat → Nat → Nat → Nat
  | 0, _, result => result
  | fuel + 1, i, result =>
    if i < den then numDigitsLoop den fuel (i * 10) (result + 1) else result

/-- `num_digits` (/repo/lib/core/string.cpp lines 86-95), `Ratio::num == 1` for
all sub-second periods. -/
def numDigits (u : TUnit) : Nat := numDigitsLoop u.den 20 1 0

/-- The range of `int64_t`, the representation of all durations involved
(/repo/lib/core/include/scipp/core/time_point.h line 17; libstdc++'s
`system_clock::duration`). -/
def fits64 (x : Int) : Bool := decide (-(2 ^ 63) ≤ x ∧ x < 2 ^ 63)

/-- `std::chrono::duration_cast<std::chrono::seconds>(duration)`
(/repo/lib/core/string.cpp line 128): integer division truncating towards zero
for sub-second units, multiplication for longer ones.  Signed overflow of the
multiplication is undefined. -/
def castSeconds (u : TUnit) (count : Int) : Except Err Int :=
  if fits64 (count * u.num) then .ok ((count * u.num).tdiv u.den)
  else .error .ub

/-- `Clock::to_time_t(Clock::time_point{seconds})`
(/repo/lib/core/string.cpp lines 127-128): the seconds are converted to the
clock's own duration (`clock` ticks per second: 10^9 for libstdc++), where the
multiplication may overflow, and back by a truncating division. -/
def toTimeT (clock : Nat) (seconds : Int) : Except Err Int :=
  if fits64 (seconds * clock) then .ok ((seconds * clock).tdiv clock)
  else .error .ub

/-- A decimal digit as a character; used by the models of `ostream <<`. -/
def digitChar (d : Nat) : Char := Char.ofNat (48 + d)

/-- `ostream << n` for a nonnegative number: decimal digits, most significant
first, `0` for zero (/repo/lib/core/string.cpp line 132). -/
def natText (n : Nat) : List Char :=
  if n = 0 then ['0'] else ((Nat.digits 10 n).reverse).map digitChar

/-- `ostream << n` for an `int64_t` (/repo/lib/core/string.cpp line 132). -/
def intText (n : Int) : List Char :=
  if n < 0 then '-' :: natText n.natAbs else natText n.natAbs

/-- `std::setw(w) << std::setfill('0')` with the default adjustment: fill
characters go to the left of the whole text, also to the left of a sign
(/repo/lib/core/string.cpp lines 131-132). -/
def setw (w : Nat) (text : List Char) : List Char :=
  List.replicate (w - text.length) '0' ++ text

/-- `to_string(duration)` (/repo/lib/core/string.cpp lines 110-135) for the
platforms other than Windows.  `gmtime` is the C library's function (not part
of the repository).  The result is the broken-down time printed by `put_time`
and, for sub-second units, the characters after the `'.'`. -/
def durationText (gmtime : Int → Civil) (clock : Nat) (u : TUnit) (count : Int) :
    Except Err (Civil × Option (List Char)) := do
  let seconds ← castSeconds u count
  let t ← toTimeT clock seconds
  .ok (gmtime t,
    if 1 < u.den then some (setw (numDigits u) (intText (count.tmod u.den)))
    else none)

/-- `to_iso_date` (/repo/lib/core/string.cpp lines 138-157). -/
def toIsoDate (gmtime : Int → Civil) (clock : Nat) (count : Int) :
    TUnit → Except Err (Civil × Option (List Char))
  | .coarse => .error .unit
  | .other => .error .unit
  | u => durationText gmtime clock u count

/-- The parts `array_to_string` puts between the brackets: an element, or the
`"..., "` marker. -/
inductive Shown (α : Type) where
  | elem (a : α)
  | dots
  deriving DecidableEq, Repr

/-- The loop of `array_to_string`
(/repo/lib/core/include/scipp/core/array_to_string.h lines 80-87) from index
`i`; `fuel` bounds the number of iterations.  Reading outside the array is
undefined. -/
def arrayLoop {α : Type} (arr : List α) : Nat → Nat → Except Err (List (Shown α))
  | 0, _ => .ok []
  | fuel + 1, i =>
    if i < arr.length then
      if i = 2 ∧ arr.length > 2 * 2 then
        match arr[arr.length - 2]? with
        | none => .error .ub
        | some a => do
          let rest ← arrayLoop arr fuel (arr.length - 2 + 1)
          .ok (.dots :: .elem a :: rest)
      else
        match arr[i]? with
        | none => .error .ub
        | some a => do
          let rest ← arrayLoop arr fuel (i + 1)
          .ok (.elem a :: rest)
    else .ok []

/-- `array_to_string`
(/repo/lib/core/include/scipp/core/array_to_string.h lines 73-91).
Simplification: a list of parts instead of their concatenated text. -/
def arrayToString {α : Type} (arr : List α) : Except Err (List (Shown α)) :=
  if arr.length = 0 then .ok [] else arrayLoop arr arr.length 0

end Scipp.TimeString
