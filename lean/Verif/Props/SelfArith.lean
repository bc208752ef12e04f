import Verif.Model.SelfArith
import Mathlib.Tactic.Ring
import Mathlib.Tactic.FieldSimp
import Mathlib.Tactic.SplitIfs
import Mathlib.Tactic.Linarith
/-!
C90: operations of a variable with itself (`lib/variable/arithmetic.cpp` 31-68).
-/
namespace Scipp.Props
open Scipp Special Ext SelfArith
variable {n : Nat}

private theorem infOfSign_self {q : ℚ} : infOfSign q = nan ↔ q = 0 := by
  unfold infOfSign; split_ifs <;> simp_all

/-- **C90** (values): the value of an operation of a variable with itself is the same as with a separate variable of equal values, also for
infinities and NaN, except for the quotient of zeros. -/
theorem C90_value_partial (op : SelfArith.Op) (a : ExtVV) (h : op = .div → a.value ≠ fin 0) : (self op a).value = (plain op a a).value := by
  obtain ⟨x, v⟩ := a
  cases op with
  | add =>
    cases x <;> simp [self, plain, mulScalar, Ext.mul, Ext.add, infOfSign]
    ring
  | sub =>
    cases x <;> simp [self, plain, mulScalar, Ext.mul, Ext.add, Ext.sub, Ext.neg, infOfSign]
  | mul =>
    cases x with
    | fin q =>
      by_cases hq : q = 0
      · subst hq; simp [self, plain, selfPow, Ext.mul]
      · simp [self, plain, selfPow, Ext.mul, powMinusOne, hq]
    | _ => simp [self, plain, selfPow, Ext.mul, powMinusOne]
  | div =>
    cases x with
    | fin q =>
      have hq : q ≠ 0 := fun hq => h rfl (by rw [hq])
      simp [self, plain, selfPow, Ext.mul, powMinusOne, SelfArith.div, hq]
    | _ => simp [self, plain, selfPow, Ext.mul, powMinusOne, SelfArith.div, infOfSign]

/-- **C90** (variances): for finite numbers the variances are those of `2x`, `0`, `x²` and `1`, not those for independent operands. -/
theorem C90_variance_partial (x v : ℚ) :
    (self .add ⟨fin x, fin v⟩).variance = fin (4 * v) ∧ (self .sub ⟨fin x, fin v⟩).variance = fin 0 ∧
    (self .mul ⟨fin x, fin v⟩).variance = fin ((2 * x) ^ 2 * v) ∧ (x ≠ 0 → (self .div ⟨fin x, fin v⟩).variance = fin 0) := by
  refine ⟨?_, ?_, ?_, fun hx => ?_⟩
  · simp [self, mulScalar, Ext.mul]; ring
  · simp [self, mulScalar, Ext.mul]
  · simp only [self, selfPow, Ext.mul, powMinusOne, if_true]; congr 1; push_cast; ring
  · simp [self, selfPow, Ext.mul, powMinusOne, SelfArith.div, hx]

/-- **C90, where the code deviates**: the quotient of a zero with itself is 1 with variance NaN, while that of equal but separate variables is NaN. -/
theorem C90_wrong_zero (v : ℚ) : self .div ⟨fin 0, fin v⟩ = ⟨fin 1, nan⟩ ∧ (plain .div ⟨fin 0, fin v⟩ ⟨fin 0, fin v⟩).value = nan := by
  constructor
  · simp [self, selfPow, Ext.mul, powMinusOne, SelfArith.div, infOfSign]
  · simp [plain, SelfArith.div, infOfSign]

/-- **C90** (units): the unit of an operation of a variable with itself is the same as with a separate variable, and fails in the same cases,
if there is a unit. -/
theorem C90_unit_partial (r : ExpRange n) (hr : r.fits ⟨1, fun _ => 0⟩ = true) (op : SelfArith.Op) (u : PreciseUnit n) (hu : u.mult ≠ 0)
    (hfit : r.fits u = true) :
    selfUnit r op (some u) = plainUnit r op (some u) (some u) := by
  have hmul1 : (MUnit.mul r (some u) MUnit.one) = .ok (some u) := by
    have : u.mul ⟨1, fun _ => 0⟩ = u := by
      unfold PreciseUnit.mul; simp
    show (if r.fits (u.mul ⟨1, fun _ => 0⟩) then _ else _) = _
    rw [this, hfit, if_pos rfl]
  have hsq : u.pow (MUnit.toInt 2) = u.mul u := by
    have : MUnit.toInt 2 = 2 := by decide
    rw [this]
    unfold PreciseUnit.mul PreciseUnit.pow
    congr 1
    · rw [zpow_ofNat, pow_two]
    · funext i; omega
  have hdiv : u.pow (MUnit.toInt 0) = u.div u := by
    have : MUnit.toInt 0 = 0 := by decide
    rw [this]
    unfold PreciseUnit.div PreciseUnit.pow
    congr 1
    · rw [zpow_zero, div_self hu]
    · funext i; omega
  cases op with
  | add =>
    show MUnit.mul r (some u) (factorUnit (some u)) = MUnit.add (some u) (some u)
    simp only [factorUnit, reduceCtorEq, if_false, hmul1, MUnit.add, if_true]
  | sub =>
    show MUnit.mul r (some u) (factorUnit (some u)) = MUnit.sub (some u) (some u)
    simp only [factorUnit, reduceCtorEq, if_false, hmul1, MUnit.sub, if_true]
  | mul =>
    show powUnit r (some u) (factorUnit (some u)) 2 = MUnit.mul r (some u) (some u)
    simp only [factorUnit, reduceCtorEq, if_false, powUnit, ne_eq, not_true_eq_false]
    split_ifs with h
    · have : u = ⟨1, fun _ => 0⟩ := Option.some.inj h
      subst this
      have h1 : (PreciseUnit.mul ⟨1, fun _ => 0⟩ ⟨1, fun _ => 0⟩ : PreciseUnit n) = ⟨1, fun _ => 0⟩ := by simp [PreciseUnit.mul]
      simp only [MUnit.mul, h1, hr, if_true]
      rfl
    · show (if r.fits (u.pow (MUnit.toInt 2)) then Except.ok (some (u.pow (MUnit.toInt 2))) else Except.error Err.unit) = (if r.fits (u.mul u) then _ else _)
      rw [hsq]
  | div =>
    show powUnit r (some u) (factorUnit (some u)) 0 = MUnit.div r (some u) (some u)
    simp only [factorUnit, reduceCtorEq, if_false, powUnit, ne_eq, not_true_eq_false]
    split_ifs with h
    · have : u = ⟨1, fun _ => 0⟩ := Option.some.inj h
      subst this
      have h1 : (PreciseUnit.div ⟨1, fun _ => 0⟩ ⟨1, fun _ => 0⟩ : PreciseUnit n) = ⟨1, fun _ => 0⟩ := by simp [PreciseUnit.div]
      simp only [MUnit.div, h1, hr, if_true]
      rfl
    · show (if r.fits (u.pow (MUnit.toInt 0)) then Except.ok (some (u.pow (MUnit.toInt 0))) else Except.error Err.unit) = (if r.fits (u.div u) then _ else _)
      rw [hdiv]

/-- **C90, where the code deviates**: a variable without unit cannot be multiplied with or divided by itself, but by a separate variable. -/
theorem C90_wrong_none (r : ExpRange n) (op : SelfArith.Op) :
    plainUnit r op none none = .ok none ∧
    selfUnit r op none = if op = .add ∨ op = .sub then .ok none else .error .unit := by
  cases op <;> refine ⟨?_, ?_⟩ <;> first | rfl | (simp [selfUnit, powUnit, factorUnit, MUnit.one]) | (simp [plainUnit, MUnit.add, MUnit.sub])

example := C90_value_partial .div ⟨pinf, fin 2⟩ (by simp)

example := (C90_variance_partial 3 (1 / 2)).2.2.2 (by decide)

example := C90_unit_partial (n := 1) (fun _ => (-8, 7)) (by decide) .mul ⟨1 / 1000, fun _ => 3⟩ (by decide +kernel) (by decide)

end Scipp.Props
