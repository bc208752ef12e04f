import Verif.Model.CompactFormat
import Verif.Props.FloorDivide
import Mathlib.Tactic.Linarith
import Mathlib.Tactic.Ring
import Mathlib.Tactic.FieldSimp
import Mathlib.Tactic.Positivity
import Mathlib.Tactic.NormNum
/-!
C129: compact text of values with uncertainties.
-/
namespace Scipp.Props
open Scipp.Numeric Scipp.CompactFormat

theorem precision_bounds (error : ℚ) (h : 0 < error) : 3 / 2 * (10 : ℚ) ^ precision error ≤ error ∧ error ≤ 15 * (10 : ℚ) ^ precision error := by
  have h1 : (10 : ℚ) ^ Int.log 10 error ≤ error := by
    have := Int.zpow_log_le_self (b := 10) (r := error) (by norm_num) h
    exact_mod_cast this
  have h2 : error < (10 : ℚ) ^ (Int.log 10 error + 1) := by
    have := Int.lt_zpow_succ_log_self (b := 10) (by norm_num) error
    exact_mod_cast this
  have hpos : (0 : ℚ) < 10 ^ Int.log 10 error := zpow_pos (by norm_num) _
  rw [zpow_add₀ (by norm_num), zpow_one] at h2
  have hmul : error * (10 : ℚ) ^ (-Int.log 10 error) * 10 ^ Int.log 10 error = error := by
    rw [mul_assoc, ← zpow_add₀ (by norm_num), neg_add_cancel, zpow_zero, mul_one]
  have herr := abs_le.1 (roundHalfEven_err (error * (10 : ℚ) ^ (-Int.log 10 error)))
  unfold precision
  simp only
  split
  · rename_i hr
    rw [hr] at herr
    push_cast at herr
    have h3 : error * (10 : ℚ) ^ (-Int.log 10 error) ≤ 3 / 2 := by linarith [herr.1]
    have h4 : error ≤ 3 / 2 * 10 ^ Int.log 10 error := by
      calc error = error * (10 : ℚ) ^ (-Int.log 10 error) * 10 ^ Int.log 10 error := hmul.symm
        _ ≤ 3 / 2 * 10 ^ Int.log 10 error := mul_le_mul_of_nonneg_right h3 hpos.le
    rw [zpow_sub₀ (by norm_num), zpow_one]
    constructor
    · linarith
    · linarith
  · rename_i hr
    refine ⟨?_, by linarith⟩
    have h3 : (1 : ℚ) ≤ error * (10 : ℚ) ^ (-Int.log 10 error) := by
      rw [zpow_neg, ← div_eq_mul_inv, le_div_iff₀ hpos]
      linarith
    have h4 : (1 : Int) ≤ roundHalfEven (error * (10 : ℚ) ^ (-Int.log 10 error)) := le_roundHalfEven (by exact_mod_cast h3)
    have h5 : (2 : Int) ≤ roundHalfEven (error * (10 : ℚ) ^ (-Int.log 10 error)) := by omega
    have h6 : (2 : ℚ) ≤ roundHalfEven (error * (10 : ℚ) ^ (-Int.log 10 error)) := by exact_mod_cast h5
    have h7 : (3 / 2 : ℚ) ≤ error * (10 : ℚ) ^ (-Int.log 10 error) := by linarith [herr.2]
    calc 3 / 2 * (10 : ℚ) ^ Int.log 10 error ≤ error * (10 : ℚ) ^ (-Int.log 10 error) * 10 ^ Int.log 10 error := mul_le_mul_of_nonneg_right h7 hpos.le
      _ = error := hmul

/-- What is meant by `mantissa` with decimals and an uncertainty in parentheses: the uncertainty applies to the last digits. -/
def c129Read : Text → ℚ × ℚ
  | .plain v => (v, 0)
  | .digits m d e => ((m : ℚ) / 10 ^ d, (e : ℚ) / 10 ^ d)

theorem scaled_err (q : ℚ) (p : Int) : |(roundHalfEven (q * 10 ^ (-p)) : ℚ) * 10 ^ p - q| ≤ 10 ^ p / 2 := by
  have hpos : (0 : ℚ) < 10 ^ p := zpow_pos (by norm_num) _
  have hmul : q * (10 : ℚ) ^ (-p) * 10 ^ p = q := by rw [mul_assoc, ← zpow_add₀ (by norm_num), neg_add_cancel, zpow_zero, mul_one]
  have h := roundHalfEven_err (q * (10 : ℚ) ^ (-p))
  have heq : (roundHalfEven (q * 10 ^ (-p)) : ℚ) * 10 ^ p - q = ((roundHalfEven (q * 10 ^ (-p)) : ℚ) - q * 10 ^ (-p)) * 10 ^ p := by
    rw [sub_mul, hmul]
  rw [heq, abs_mul, abs_of_pos hpos]
  calc _ ≤ 1 / 2 * (10 : ℚ) ^ p := mul_le_mul_of_nonneg_right h hpos.le
    _ = 10 ^ p / 2 := by ring

/-- **C129** The text gives value and uncertainty up to half a unit of the last digit shown, which is a power of ten; that digit is the first or second of the uncertainty, which is between 3/2 and 15 units. -/
theorem C129_digits (sqrt : ℚ → ℚ) (value var : ℚ) (hv : var ≠ 0) (hs : 0 < sqrt var) :
    ∃ p : Int, 3 / 2 * (10 : ℚ) ^ p ≤ sqrt var ∧ sqrt var ≤ 15 * (10 : ℚ) ^ p ∧
      |(c129Read (compact sqrt value (some var))).1 - value| ≤ 10 ^ p / 2 ∧
      |(c129Read (compact sqrt value (some var))).2 - sqrt var| ≤ 10 ^ p / 2 := by
  obtain ⟨h1, h2⟩ := precision_bounds (sqrt var) hs
  refine ⟨precision (sqrt var), h1, h2, ?_⟩
  have hev := scaled_err value (precision (sqrt var))
  have hee := scaled_err (sqrt var) (precision (sqrt var))
  unfold compact roundTo
  simp only [if_neg hv]
  generalize precision (sqrt var) = p at *
  simp only [formatElement, c129Read]
  generalize roundHalfEven (value * 10 ^ (-p)) = a at *
  generalize roundHalfEven (sqrt var * 10 ^ (-p)) = b at *
  by_cases hp : p > -1
  · obtain ⟨n, rfl⟩ : ∃ n : Nat, p = n := ⟨p.toNat, by omega⟩
    have hmax : (max 0 (-(n : Int))).toNat = 0 := by omega
    have hint : (a : ℚ) * 10 ^ (n : Int) * 10 ^ 0 = ((a * 10 ^ n : Int) : ℚ) := by push_cast; rw [zpow_natCast, pow_zero, mul_one]
    rw [if_pos hp, hmax, hint, roundHalfEven_int]
    simp only [Int.toNat_natCast, pow_zero, div_one]
    push_cast
    rw [zpow_natCast] at hev hee ⊢
    exact ⟨hev, hee⟩
  · obtain ⟨n, rfl⟩ : ∃ n : Nat, p = -(n : Int) := ⟨(-p).toNat, by omega⟩
    have hmax : (max 0 (- -(n : Int))).toNat = n := by omega
    have hint : (a : ℚ) * 10 ^ (-(n : Int)) * 10 ^ n = (a : ℚ) := by
      rw [zpow_neg, zpow_natCast, mul_assoc, inv_mul_cancel₀ (by positivity), mul_one]
    rw [if_neg hp, hmax, hint, roundHalfEven_int]
    rw [zpow_neg, zpow_natCast] at hev hee ⊢
    rw [← div_eq_mul_inv] at hev hee
    exact ⟨hev, hee⟩

/-- **C129** The uncertainty shown is that of the value up to a third, and the value is right up to a third of the uncertainty. -/
theorem C129_relative (sqrt : ℚ → ℚ) (value var : ℚ) (hv : var ≠ 0) (hs : 0 < sqrt var) :
    |(c129Read (compact sqrt value (some var))).1 - value| ≤ sqrt var / 3 ∧ |(c129Read (compact sqrt value (some var))).2 - sqrt var| ≤ sqrt var / 3 := by
  obtain ⟨p, h1, _, h3, h4⟩ := C129_digits sqrt value var hv hs
  constructor <;> linarith

/-- **C129** One or two digits are shown for the uncertainty, followed by zeros if it is ten or more: from 2 to 15 units of the last digit; decimals of the value end with this digit. -/
theorem C129_significant (sqrt : ℚ → ℚ) (value var : ℚ) (hv : var ≠ 0) (hs : 0 < sqrt var) :
    ∃ m d e, compact sqrt value (some var) = .digits m d e ∧ ∃ k : Nat, ∃ n : Nat, e = (k : Int) * 10 ^ n ∧ 2 ≤ k ∧ k ≤ 15 ∧ (d = 0 ∨ n = 0) := by
  obtain ⟨h1, h2⟩ := precision_bounds (sqrt var) hs
  have hpos : (0 : ℚ) < 10 ^ precision (sqrt var) := zpow_pos (by norm_num) _
  have h3 : (3 / 2 : ℚ) ≤ sqrt var * 10 ^ (-precision (sqrt var)) := by
    rw [zpow_neg, ← div_eq_mul_inv, le_div_iff₀ hpos]; exact h1
  have h4 : sqrt var * 10 ^ (-precision (sqrt var)) ≤ 15 := by
    rw [zpow_neg, ← div_eq_mul_inv, div_le_iff₀ hpos]; exact h2
  have h5 : roundHalfEven (sqrt var * 10 ^ (-precision (sqrt var))) ≤ 15 := roundHalfEven_le (by exact_mod_cast h4)
  have h6 : 2 ≤ roundHalfEven (sqrt var * 10 ^ (-precision (sqrt var))) := by
    have hge : (1 : Int) ≤ ⌊sqrt var * 10 ^ (-precision (sqrt var))⌋ := Int.le_floor.2 (by push_cast; linarith)
    unfold roundHalfEven
    simp only
    by_cases hf : 2 ≤ ⌊sqrt var * 10 ^ (-precision (sqrt var))⌋
    · split
      · exact hf
      · split
        · omega
        · split <;> omega
    · have hf1 : ⌊sqrt var * 10 ^ (-precision (sqrt var))⌋ = 1 := by omega
      rw [hf1]
      have : ¬ sqrt var * 10 ^ (-precision (sqrt var)) - ((1 : Int) : ℚ) < 1 / 2 := by push_cast; linarith
      rw [if_neg this]
      split
      · decide
      · decide
  unfold compact roundTo
  simp only [if_neg hv, formatElement]
  generalize roundHalfEven (sqrt var * 10 ^ (-precision (sqrt var))) = b at *
  generalize precision (sqrt var) = p at *
  refine ⟨_, _, _, rfl, b.toNat, if p > -1 then p.toNat else 0, ?_, by omega, by omega, ?_⟩
  · have hb : ((b.toNat : Nat) : Int) = b := by omega
    split
    · rw [hb]
    · rw [hb, pow_zero, mul_one]
  · split
    · left; omega
    · right; rfl

/-- **C129** A value without uncertainty, or with uncertainty zero, is shown in full. -/
theorem C129_exact (sqrt : ℚ → ℚ) (value : ℚ) : compact sqrt value none = .plain value ∧ compact sqrt value (some 0) = .plain value := ⟨rfl, rfl⟩

/-! Cases meeting the hypotheses. -/

example : compact (fun _ => 4 / 100) (1234 / 1000) (some (16 / 10000)) = .digits 123 2 4 := by decide +kernel

example : compact (fun _ => 14 / 10) (1234 / 1000) (some (196 / 100)) = .digits 12 1 14 := by decide +kernel

example : compact (fun _ => 250) (12340) (some 62500) = .digits 12300 0 200 := by decide +kernel

example := C129_digits (fun _ => 250) 12340 62500 (by decide +kernel) (by decide +kernel)

example := C129_significant (fun _ => 4 / 100) (1234 / 1000) (16 / 10000) (by decide +kernel) (by decide +kernel)

end Scipp.Props
