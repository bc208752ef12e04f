import Verif.Model.ValueAndVariance
import Mathlib.Analysis.Calculus.Deriv.Inv
import Mathlib.Analysis.Calculus.Deriv.Abs
import Mathlib.Analysis.Calculus.Deriv.ZPow
import Mathlib.Analysis.SpecialFunctions.Log.Base
import Mathlib.Analysis.SpecialFunctions.Sqrt
import Mathlib.Analysis.SpecialFunctions.Log.Deriv
import Mathlib.Analysis.SpecialFunctions.Pow.Deriv
import Mathlib.Tactic.FieldSimp
import Mathlib.Tactic.Ring
import Mathlib.Tactic.Positivity
/-!
Property C30: propagation of uncertainties.
-/
namespace Scipp.Props
open Scipp

/-- `r` is the result of first-order error propagation of `a` through `f`: value `f(a)`, variance `f'(a)²` times the variance of `a`. -/
def Propagates (f : ℝ → ℝ) (a r : VV) : Prop :=
  ∃ f' : ℝ, HasDerivAt f f' a.value ∧ r.value = f a.value ∧ r.variance = f' ^ 2 * a.variance

/-- First-order error propagation of independent `a` and `b` through `f`: value `f(a, b)`, and the sum of the variances with the squares of the partial
derivatives as coefficients. -/
def Propagates₂ (f : ℝ → ℝ → ℝ) (a b r : VV) : Prop :=
  ∃ fa fb : ℝ, HasDerivAt (fun x => f x b.value) fa a.value ∧ HasDerivAt (fun y => f a.value y) fb b.value ∧
    r.value = f a.value b.value ∧ r.variance = fa ^ 2 * a.variance + fb ^ 2 * b.variance

/-- **C30** (sum). -/
theorem C30_add (a b : VV) : Propagates₂ (· + ·) a b (VV.add a b) :=
  ⟨1, 1, (hasDerivAt_id _).add_const _, (hasDerivAt_id _).const_add _, rfl, by simp [VV.add]⟩

/-- **C30** (difference). -/
theorem C30_sub (a b : VV) : Propagates₂ (· - ·) a b (VV.sub a b) :=
  ⟨1, -1, (hasDerivAt_id _).sub_const _, (hasDerivAt_id _).const_sub _, rfl, by simp [VV.sub]⟩

/-- **C30** (product). -/
theorem C30_mul (a b : VV) : Propagates₂ (· * ·) a b (VV.mul a b) :=
  ⟨1 * b.value, a.value * 1, (hasDerivAt_id _).mul_const _, (hasDerivAt_id _).const_mul _, rfl, by simp [VV.mul]; ring⟩

/-- **C30** (quotient). -/
theorem C30_div (a b : VV) (hb : b.value ≠ 0) : Propagates₂ (· / ·) a b (VV.div a b) := by
  refine ⟨1 / b.value, a.value * -(b.value ^ 2)⁻¹, (hasDerivAt_id _).div_const _, ?_, rfl, ?_⟩
  · simp only [div_eq_mul_inv]
    exact (hasDerivAt_inv hb).const_mul _
  · simp only [VV.div]
    field_simp

example := C30_div ⟨6, 4⟩ ⟨2, 1⟩ (by norm_num)

/-- **C30** (negative). -/
theorem C30_neg (a : VV) : Propagates (fun x => -x) a (VV.neg a) :=
  ⟨-1, (hasDerivAt_id _).neg, rfl, by simp [VV.neg]⟩

/-- **C30** (operations with numbers that have no variance). -/
theorem C30_scalar (a : VV) (s : ℝ) :
    Propagates (· + s) a (VV.addScalar a s) ∧ Propagates (s + ·) a (VV.scalarAdd s a) ∧
    Propagates (· - s) a (VV.subScalar a s) ∧ Propagates (s - ·) a (VV.scalarSub s a) ∧
    Propagates (· * s) a (VV.mulScalar a s) ∧ Propagates (s * ·) a (VV.scalarMul s a) ∧
    Propagates (· / s) a (VV.divScalar a s) ∧ (a.value ≠ 0 → Propagates (s / ·) a (VV.scalarDiv s a)) := by
  refine ⟨⟨1, (hasDerivAt_id _).add_const _, rfl, by simp [VV.addScalar]⟩, ⟨1, (hasDerivAt_id _).const_add _, rfl, by simp [VV.scalarAdd]⟩,
    ⟨1, (hasDerivAt_id _).sub_const _, rfl, by simp [VV.subScalar]⟩, ⟨-1, (hasDerivAt_id _).const_sub _, rfl, by simp [VV.scalarSub]⟩,
    ⟨1 * s, (hasDerivAt_id _).mul_const _, rfl, by simp [VV.mulScalar]; ring⟩, ⟨s * 1, (hasDerivAt_id _).const_mul _, rfl, by simp [VV.scalarMul]; ring⟩,
    ⟨1 / s, (hasDerivAt_id _).div_const _, rfl, by simp [VV.divScalar]; ring⟩, fun ha => ⟨s * -(a.value ^ 2)⁻¹, ?_, rfl, ?_⟩⟩
  · simp only [div_eq_mul_inv]
    exact (hasDerivAt_inv ha).const_mul _
  · simp only [VV.scalarDiv]
    field_simp

example := (C30_scalar ⟨6, 4⟩ 3).2.2.2.2.2.2.2 (by norm_num)

/-- **C30** (functions): square root, absolute value, exponential function and logarithms. -/
theorem C30_functions (a : VV) :
    (0 < a.value → Propagates Real.sqrt a (VV.sqrt a)) ∧ (a.value ≠ 0 → Propagates (fun x => |x|) a (VV.abs a)) ∧
    Propagates Real.exp a (VV.exp a) ∧ (0 < a.value → Propagates Real.log a (VV.log a)) ∧
    (0 < a.value → Propagates (fun x => Real.logb 10 x) a (VV.log10 a)) := by
  refine ⟨fun h => ⟨_, Real.hasDerivAt_sqrt h.ne', rfl, ?_⟩, fun h => ?_, ⟨_, Real.hasDerivAt_exp _, rfl, ?_⟩,
    fun h => ⟨_, Real.hasDerivAt_log h.ne', rfl, ?_⟩, fun h => ⟨a.value⁻¹ / Real.log 10, ?_, rfl, ?_⟩⟩
  · have hs : Real.sqrt a.value ≠ 0 := (Real.sqrt_pos.mpr h).ne'
    have h2 : Real.sqrt a.value ^ 2 = a.value := Real.sq_sqrt h.le
    simp only [VV.sqrt]
    rw [div_pow, mul_pow, h2]
    field_simp
    norm_num
    ring
  · rcases lt_or_gt_of_ne h with h | h
    · exact ⟨_, hasDerivAt_abs_neg h, rfl, by simp [VV.abs]⟩
    · exact ⟨_, hasDerivAt_abs_pos h, rfl, by simp [VV.abs]⟩
  · simp only [VV.exp]; ring
  · simp only [VV.log]; field_simp
  · have := (Real.hasDerivAt_log h.ne').div_const (Real.log 10)
    exact this
  · simp only [VV.log10]; field_simp

example := (C30_functions ⟨6, 4⟩).1 (by norm_num)

/-- **C30** (integer powers), wherever the derivative exists. -/
theorem C30_pow_int (a : VV) (n : ℤ) (h : a.value ≠ 0 ∨ 0 < n) : Propagates (fun x => x ^ n) a (VV.powInt a n) := by
  refine ⟨n * a.value ^ (n - 1), hasDerivAt_zpow n _ (h.imp id (fun h => h.le)), ?_, ?_⟩
  · simp only [VV.powInt]
    by_cases ha : a.value = 0
    · have hn : 0 < n := h.resolve_left (not_not.mpr ha)
      rw [if_neg (by omega), if_pos ⟨ha, hn⟩, ha, zero_zpow _ hn.ne']
    · rw [if_neg (fun h => ha h.1), if_neg (fun h => ha h.1), zpow_sub_one₀ ha]
      field_simp
  · simp only [VV.powInt]
    have : (|(n : ℝ)| * a.value ^ (n - 1)) * (|(n : ℝ)| * a.value ^ (n - 1)) = |(n : ℝ)| ^ 2 * (a.value ^ (n - 1)) ^ 2 := by ring
    rw [this, sq_abs]; ring

example := C30_pow_int ⟨-6, 4⟩ (-3) (.inl (by norm_num))

/-- **C30** (real powers) of positive numbers. -/
theorem C30_pow_real (a : VV) (p : ℝ) (h : 0 < a.value) : Propagates (fun x => x ^ p) a (VV.powReal a p) := by
  refine ⟨p * a.value ^ (p - 1), Real.hasDerivAt_rpow_const (.inl h.ne'), ?_, ?_⟩
  · simp only [VV.powReal]
    rw [if_neg (fun h' => h.ne' h'.1), if_neg (fun h' => h.ne' h'.1), Real.rpow_sub_one h.ne']
    field_simp
  · simp only [VV.powReal]
    have : (|p| * a.value ^ (p - 1)) * (|p| * a.value ^ (p - 1)) = |p| ^ 2 * (a.value ^ (p - 1)) ^ 2 := by ring
    rw [this, sq_abs]; ring

example := C30_pow_real ⟨6, 4⟩ (1 / 3) (by norm_num)

/-- **C30** (same variable twice): if both operands are the same variable, the result is that of error propagation through the function of one
variable, e.g., `x - x` has no variance. -/
theorem C30_correlated (a : VV) :
    Propagates (fun x => x + x) a (VV.varAdd true a a) ∧ Propagates (fun x => x - x) a (VV.varSub true a a) ∧
    Propagates (fun x => x * x) a (VV.varMul true a a) ∧ (a.value ≠ 0 → Propagates (fun x => x / x) a (VV.varDiv true a a)) := by
  refine ⟨⟨1 + 1, (hasDerivAt_id _).add (hasDerivAt_id _), ?_, ?_⟩, ⟨1 - 1, (hasDerivAt_id _).sub (hasDerivAt_id _), ?_, ?_⟩,
    ⟨1 * a.value + a.value * 1, (hasDerivAt_id _).mul (hasDerivAt_id _), ?_, ?_⟩, fun h => ⟨0, ?_, ?_, ?_⟩⟩
  · simp [VV.varAdd, VV.mulScalar]; ring
  · simp [VV.varAdd, VV.mulScalar]; ring
  · simp [VV.varSub, VV.mulScalar]
  · simp [VV.varSub, VV.mulScalar]
  · simp only [VV.varMul, VV.powInt, if_true]
    by_cases ha : a.value = 0
    · rw [if_neg (by simp), if_pos ⟨ha, by norm_num⟩, ha, mul_zero]
    · rw [if_neg (by simp), if_neg (fun h => ha h.1)]; norm_num
  · simp only [VV.varMul, VV.powInt, if_true]; norm_num; left; ring
  · have h1 : (fun x : ℝ => x / x) =ᶠ[nhds a.value] fun _ => 1 := by
      filter_upwards [isOpen_ne.mem_nhds h] with x hx
      exact div_self hx
    exact (hasDerivAt_const a.value (1 : ℝ)).congr_of_eventuallyEq h1
  · simp [VV.varDiv, VV.powInt, h]
  · simp [VV.varDiv, VV.powInt]

example : (VV.varSub true ⟨6, 4⟩ ⟨6, 4⟩).variance = 0 := by
  obtain ⟨f', h, _, h2⟩ := (C30_correlated ⟨6, 4⟩).2.1
  have : f' = 0 := h.unique (by simpa using hasDerivAt_const (6 : ℝ) (0 : ℝ))
  rw [h2, this]
  norm_num

/-- **C30** (same variable, result per definition): without the special case the variances would be wrong. -/
theorem C30_not_independent : ∃ a : VV, ¬ Propagates (fun x => x + x) a (VV.varAdd false a a) := by
  refine ⟨⟨1, 1⟩, ?_⟩
  rintro ⟨f', h1, _, h3⟩
  have := h1.unique ((hasDerivAt_id _).add (hasDerivAt_id _))
  subst this
  norm_num [VV.varAdd, VV.add] at h3

/-- **C30** (no negative variances). -/
theorem C30_nonneg (a b : VV) (s : ℝ) (n : ℤ) (ha : 0 ≤ a.variance) (hb : 0 ≤ b.variance) :
    0 ≤ (VV.add a b).variance ∧ 0 ≤ (VV.sub a b).variance ∧ 0 ≤ (VV.mul a b).variance ∧ 0 ≤ (VV.div a b).variance ∧
    0 ≤ (VV.neg a).variance ∧ 0 ≤ (VV.mulScalar a s).variance ∧ 0 ≤ (VV.scalarMul s a).variance ∧ 0 ≤ (VV.divScalar a s).variance ∧
    0 ≤ (VV.scalarDiv s a).variance ∧ 0 ≤ (VV.exp a).variance ∧ 0 ≤ (VV.log a).variance ∧ 0 ≤ (VV.log10 a).variance ∧
    0 ≤ (VV.powInt a n).variance ∧ 0 ≤ (VV.powReal a s).variance ∧ (0 ≤ a.value → 0 ≤ (VV.sqrt a).variance) ∧
    0 ≤ (VV.min a b).variance ∧ 0 ≤ (VV.max a b).variance := by
  refine ⟨?_, ?_, ?_, ?_, ?_, ?_, ?_, ?_, ?_, ?_, ?_, ?_, ?_, ?_, ?_, ?_, ?_⟩
  · simp only [VV.add]; positivity
  · simp only [VV.sub]; positivity
  · simp only [VV.mul]
    have h1 := mul_nonneg ha (mul_self_nonneg b.value)
    have h2 := mul_nonneg hb (mul_self_nonneg a.value)
    rw [mul_assoc, mul_assoc]; exact add_nonneg h1 h2
  · simp only [VV.div]
    have h1 := mul_self_nonneg a.value
    have h2 := mul_self_nonneg b.value
    positivity
  · exact ha
  · simp only [VV.mulScalar]; rw [mul_assoc]; exact mul_nonneg ha (mul_self_nonneg s)
  · simp only [VV.scalarMul]; rw [mul_assoc]; exact mul_nonneg ha (mul_self_nonneg s)
  · simp only [VV.divScalar]; exact div_nonneg ha (mul_self_nonneg s)
  · simp only [VV.scalarDiv]
    exact div_nonneg (div_nonneg (by rw [mul_assoc]; exact mul_nonneg ha (mul_self_nonneg s)) (mul_self_nonneg _)) (mul_self_nonneg _)
  · simp only [VV.exp]; positivity
  · simp only [VV.log]; exact div_nonneg ha (mul_self_nonneg _)
  · simp only [VV.log10]; exact div_nonneg ha (mul_self_nonneg _)
  · simp only [VV.powInt]; exact mul_nonneg (mul_self_nonneg _) ha
  · simp only [VV.powReal]; exact mul_nonneg (mul_self_nonneg _) ha
  · intro h; simp only [VV.sqrt]; positivity
  · simp only [VV.min]; split <;> assumption
  · simp only [VV.max]; split <;> assumption

example := C30_nonneg ⟨-6, 4⟩ ⟨2, 1⟩ (-3) (-2) (by norm_num) (by norm_num)

/-- **C30** (order of operands): sums and products do not depend on the order or grouping of the operands. -/
theorem C30_order (a b c : VV) : VV.add a b = VV.add b a ∧ VV.mul a b = VV.mul b a ∧
    VV.add (VV.add a b) c = VV.add a (VV.add b c) ∧ VV.mul (VV.mul a b) c = VV.mul a (VV.mul b c) := by
  refine ⟨?_, ?_, ?_, ?_⟩ <;> ext <;> simp only [VV.add, VV.mul] <;> ring

/-- Minimum and maximum select one of the operands, with its own variance. -/
theorem C30_min_max (a b : VV) : (VV.min a b = a ∨ VV.min a b = b) ∧ (VV.min a b).value = Min.min a.value b.value ∧
    (VV.max a b = a ∨ VV.max a b = b) ∧ (VV.max a b).value = Max.max a.value b.value := by
  simp only [VV.min, VV.max]
  refine ⟨by split <;> simp, ?_, by split <;> simp, ?_⟩
  · split
    · rw [min_eq_left (le_of_lt ‹_›)]
    · rw [min_eq_right (not_lt.mp ‹_›)]
  · split
    · rw [max_eq_left (le_of_lt ‹_›)]
    · rw [max_eq_right (not_lt.mp ‹_›)]

example : (VV.mul ⟨2, 3⟩ ⟨5, 7⟩).variance = 103 ∧ (VV.div ⟨6, 4⟩ ⟨2, 1⟩).variance = 13 / 4 := by
  norm_num [VV.mul, VV.div]

end Scipp.Props
