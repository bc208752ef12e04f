import Verif.Model.Sizes
import Mathlib.Algebra.Order.Field.Basic
import Mathlib.Data.Fintype.Basic
import Mathlib.Algebra.Field.Rat
import Mathlib.Algebra.Order.Ring.Unbundled.Rat
/-
Model of `lib/units/unit.cpp`. The library providing the units of measurement (LLNL/units) is not part of the repository; a unit is represented
by what that library documents: a multiplier and an integer exponent for every base unit, with a limited range for each of the exponents. Multipliers
are positive rational numbers; rounding is not modelled.
-/
namespace Scipp

/-- A unit of measurement with `n` base units (`units::precise_unit`): `mult` times the product of powers of the base units. -/
structure PreciseUnit (n : Nat) where
  mult : ℚ
  exps : Fin n → Int

namespace PreciseUnit
variable {n : Nat}

instance : DecidableEq (PreciseUnit n) := fun a b =>
  if h : a.mult = b.mult ∧ a.exps = b.exps then .isTrue (by cases a; cases b; simp_all)
  else .isFalse (by rintro rfl; simp at h)

/-- `operator*` of the units library. -/
def mul (a b : PreciseUnit n) : PreciseUnit n := ⟨a.mult * b.mult, fun i => a.exps i + b.exps i⟩

/-- `operator/` of the units library. -/
def div (a b : PreciseUnit n) : PreciseUnit n := ⟨a.mult / b.mult, fun i => a.exps i - b.exps i⟩

/-- `pow` of the units library. -/
def pow (a : PreciseUnit n) (p : Int) : PreciseUnit n := ⟨a.mult ^ p, fun i => a.exps i * p⟩

end PreciseUnit

/-- Representable exponents: a range for each base unit. -/
abbrev ExpRange (n : Nat) := Fin n → Int × Int

/-- No exponent overflows (`times_overflows`, `divides_overflows`, `pow_overflows` of the units library are its negation for the respective result). -/
def ExpRange.fits {n : Nat} (r : ExpRange n) (u : PreciseUnit n) : Bool := (List.finRange n).all fun i => (r i).1 ≤ u.exps i && u.exps i ≤ (r i).2

/-- `Unit` (`lib/units/include/scipp/units/unit.h`): `std::optional<precise_unit>`, `none` is the unit 'None'. -/
abbrev MUnit (n : Nat) := Option (PreciseUnit n)

namespace MUnit
variable {n : Nat}

/-- `units::one`. -/
def one : MUnit n := some ⟨1, fun _ => 0⟩

/-- `operator+` (`unit.cpp` 89-93). -/
def add (a b : MUnit n) : Except Err (MUnit n) := if a = b then .ok a else .error .unit

/-- `operator-` (`unit.cpp` 95-100). -/
def sub (a b : MUnit n) : Except Err (MUnit n) := if a = b then .ok a else .error .unit

/-- `operator%` (`unit.cpp` 131-136). -/
def mod (a b : MUnit n) : Except Err (MUnit n) := if a = b then .ok a else .error .unit

/-- `operator*` (`unit.cpp` 109-118). -/
def mul (r : ExpRange n) : MUnit n → MUnit n → Except Err (MUnit n)
  | none, none => .ok none
  | none, some _ => .error .unit
  | some _, none => .error .unit
  | some a, some b => if r.fits (a.mul b) then .ok (some (a.mul b)) else .error .unit

/-- `operator/` (`unit.cpp` 120-129). -/
def div (r : ExpRange n) : MUnit n → MUnit n → Except Err (MUnit n)
  | none, none => .ok none
  | none, some _ => .error .unit
  | some _, none => .error .unit
  | some a, some b => if r.fits (a.div b) then .ok (some (a.div b)) else .error .unit

/-- `static_cast<int>(power)` (`unit.cpp` 160, 163): reduction modulo 2³² to a 32 bit integer. -/
def toInt (p : Int) : Int := (p + 2 ^ 31) % 2 ^ 32 - 2 ^ 31

/-- `pow` (`unit.cpp` 157-164). -/
def pow (r : ExpRange n) : MUnit n → Int → Except Err (MUnit n)
  | none, _ => .ok none
  | some a, p => if r.fits (a.pow (toInt p)) then .ok (some (a.pow (toInt p))) else .error .unit

/-- `sqrt` (`unit.cpp` 148-155). The square root of the units library is an error if an exponent is odd. The multiplier's square root is given by `root`, the
square root on numbers. -/
def sqrt (root : ℚ → ℚ) : MUnit n → Except Err (MUnit n)
  | none => .ok none
  | some a => if (List.finRange n).all fun i => a.exps i % 2 = 0 then .ok (some ⟨root a.mult, fun i => a.exps i / 2⟩) else .error .unit

end MUnit
end Scipp
