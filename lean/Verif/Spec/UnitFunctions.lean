import Verif.Model.UnitFunctions
/-
Vocabulary for the statement that results do not depend on the units in which quantities are given.
-/
namespace Scipp.UnitFn
variable {n : Nat}

/-- Value and variance of an element in terms of the base units, given the number of base units in its unit: the value is multiplied by that number, the
variance by its square. -/
noncomputable def physical : Num → ℝ → ℝ × Option ℝ
  | .plain v, m => (v * m, none)
  | .pair x, m => (x.value * m, some (x.variance * (m * m)))

/-- `a` and `b` are the same physical quantity, possibly in different units (such as 1.5 m and 1500 mm). Quantities with the unit `None` are plain numbers. -/
def Same (a b : Qty n) : Prop :=
  match a.unit, b.unit with
  | none, none => a.num = b.num
  | some u, some w => u.exps = w.exps ∧ 0 < u.mult ∧ 0 < w.mult ∧ physical a.num u.mult = physical b.num w.mult
  | _, _ => False

/-- A factor for the conversion of units that is not taken for an integer while not being one: `to_unit` regards factors (divided by a million if above
a million) with a distance from an integer below 10⁻¹² times the factor as that integer. -/
def ExactFactor (s : ℚ) : Prop :=
  let b := if s > 1000000 then s / 1000000 else s
  (∃ k : ℤ, b = k) ∨ ∀ k : ℤ, 1 / 1000000000000 * |b| ≤ |b - k|

/-- Functions that do not depend on the unit of their argument, which is `u`. Rounding does depend on it. -/
def Unary.Independent (l : Lib n) (u : MUnit n) : Unary n → Prop
  | .floor | .ceil | .rint => False
  | .sqrt => ∀ p, u = some p → 0 < l.root p.mult ∧ l.root p.mult * l.root p.mult = p.mult
  | .pow p => -2 ^ 31 ≤ p ∧ p < 2 ^ 31
  | .trig _ => ∀ p, u = some p → ExactFactor (p.mult / l.rad.mult)
  | .toUnit t => ∀ p q, u = some p → t = some q → 0 < q.mult ∧ ExactFactor (p.mult / q.mult)
  | _ => True

/-- Operations that do not depend on the units of their operands, which are `u` and `w`. Floor division does depend on them, unless they are equal. -/
def Binary.Independent (u w : MUnit n) : Binary → Prop
  | .floorDivide => u = w
  | _ => True

/-- Every step of the calculation is independent of units. -/
def Expr.Independent (l : Lib n) (env : Nat → Qty n) : Expr n → Prop
  | .input _ => True
  | .un f e => e.Independent l env ∧ ∀ q, e.eval l env = .ok q → f.Independent l q.unit
  | .bin f e₁ e₂ => e₁.Independent l env ∧ e₂.Independent l env ∧
      ∀ a b, e₁.eval l env = .ok a → e₂.eval l env = .ok b → f.Independent a.unit b.unit

/-- Assumptions about the libraries: `rad` has a positive multiplier, and `atan2` is an angle: it depends on the ratio of its (equally signed) arguments only. -/
structure Lib.Ok (l : Lib n) : Prop where
  rad : 0 < l.rad.mult
  atan2 : ∀ c y x : ℝ, 0 < c → l.atan2 (y * c) (x * c) = l.atan2 y x

end Scipp.UnitFn

namespace Scipp.UnitFn
variable {n : Nat}

/-- Functions accepting every unit of a kind: whether they succeed does not depend on the unit in which a quantity is given. The other ones require one unit in
particular, the number one. -/
def Unary.AnyUnit : Unary n → Bool
  | .exp | .log | .log10 | .special _ | .inv _ => false
  | _ => true

end Scipp.UnitFn

namespace Scipp.UnitFn
variable {n : Nat}

/-- The value of a quantity in terms of the base units. -/
noncomputable def Qty.inBase (q : Qty n) : ℝ :=
  match q.num, q.unit with
  | .plain v, none => v
  | .pair x, none => x.value
  | .plain v, some u => v * u.mult
  | .pair x, some u => x.value * u.mult

/-- The relation named by a comparison. -/
def Compare.meaning (x y : ℝ) : Compare → Prop
  | .less => x < y
  | .greater => y < x
  | .lessEqual => x ≤ y
  | .greaterEqual => y ≤ x
  | .equal => x = y
  | .notEqual => x ≠ y

end Scipp.UnitFn
