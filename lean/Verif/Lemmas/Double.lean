import Verif.Props.FloorDivide
import Mathlib.Tactic.Linarith
import Mathlib.Tactic.Ring
import Mathlib.Tactic.FieldSimp
/-!
Facts about rounding to `double`.
-/
namespace Scipp.Numeric
open Scipp.Props

theorem roundHalfEven_mono {x y : ℚ} (h : x ≤ y) : roundHalfEven x ≤ roundHalfEven y := by
  have hf : ⌊x⌋ ≤ ⌊y⌋ := Int.floor_mono h
  by_cases he : ⌊x⌋ = ⌊y⌋
  · simp only [roundHalfEven, he]
    split_ifs <;> first | omega | (exfalso; linarith)
  · have h1 : roundHalfEven x ≤ ⌊x⌋ + 1 := by simp only [roundHalfEven]; split_ifs <;> omega
    have h2 : ⌊y⌋ ≤ roundHalfEven y := by simp only [roundHalfEven]; split_ifs <;> omega
    omega

theorem roundHalfEven_neg (x : ℚ) : roundHalfEven (-x) = -roundHalfEven x := by
  by_cases hi : ∃ n : Int, x = n
  · obtain ⟨n, rfl⟩ := hi
    rw [show (-(n : ℚ)) = ((-n : Int) : ℚ) by push_cast; rfl, roundHalfEven_int, roundHalfEven_int]
  · have h1 := Int.floor_le x
    have h2 := Int.lt_floor_add_one x
    have hne : (⌊x⌋ : ℚ) ≠ x := fun hc => hi ⟨⌊x⌋, hc.symm⟩
    have h1' : (⌊x⌋ : ℚ) < x := lt_of_le_of_ne h1 hne
    have hf : ⌊-x⌋ = -⌊x⌋ - 1 := by
      rw [Int.floor_eq_iff]
      push_cast
      constructor <;> linarith
    simp only [roundHalfEven, hf]
    push_cast
    split_ifs <;> first | omega | (exfalso; linarith)

theorem roundDouble_neg (x : ℚ) : roundDouble (-x) = -roundDouble x := by
  by_cases h : x = 0
  · subst h; simp [roundDouble]
  · simp only [roundDouble, neg_eq_zero, if_neg h, abs_neg, neg_div, roundHalfEven_neg]
    push_cast
    ring

theorem roundDouble_zero : roundDouble 0 = 0 := by simp [roundDouble]

theorem roundDouble_nonneg {x : ℚ} (h : 0 ≤ x) : 0 ≤ roundDouble x := by
  by_cases hx : x = 0
  · rw [hx, roundDouble_zero]
  · simp only [roundDouble, if_neg hx]
    have hE : (0 : ℚ) < 2 ^ (Int.log 2 |x| - 52) := zpow_pos (by norm_num) _
    have h1 : (0 : Int) ≤ roundHalfEven (x / 2 ^ (Int.log 2 |x| - 52)) := le_roundHalfEven (by push_cast; positivity)
    have h2 : (0 : ℚ) ≤ roundHalfEven (x / 2 ^ (Int.log 2 |x| - 52)) := by exact_mod_cast h1
    positivity

private theorem mono_pos {x y : ℚ} (hx : 0 < x) (h : x ≤ y) : roundDouble x ≤ roundDouble y := by
  have hy : 0 < y := lt_of_lt_of_le hx h
  simp only [roundDouble, if_neg hx.ne', if_neg hy.ne', abs_of_pos hx, abs_of_pos hy]
  have hlog : Int.log 2 x ≤ Int.log 2 y := Int.log_mono_right hx h
  generalize hl : Int.log 2 x = l at *
  generalize hm : Int.log 2 y = m at *
  have hEl : (0 : ℚ) < 2 ^ (l - 52) := zpow_pos (by norm_num) _
  have hEm : (0 : ℚ) < 2 ^ (m - 52) := zpow_pos (by norm_num) _
  by_cases he : l = m
  · subst he
    have h1 : roundHalfEven (x / 2 ^ (l - 52)) ≤ roundHalfEven (y / 2 ^ (l - 52)) :=
      roundHalfEven_mono (div_le_div_of_nonneg_right h hEl.le)
    have h2 : (roundHalfEven (x / 2 ^ (l - 52)) : ℚ) ≤ roundHalfEven (y / 2 ^ (l - 52)) := by exact_mod_cast h1
    exact mul_le_mul_of_nonneg_right h2 hEl.le
  · have hlt : l + 1 ≤ m := by omega
    have hx1 : x < 2 ^ (l + 1) := by
      have := Int.lt_zpow_succ_log_self (b := 2) (by norm_num) x
      rw [hl] at this; exact_mod_cast this
    have hy1 : (2 : ℚ) ^ m ≤ y := by
      have := Int.zpow_log_le_self (b := 2) (by norm_num) hy
      rw [hm] at this; exact_mod_cast this
    have h1 : roundHalfEven (x / 2 ^ (l - 52)) ≤ 2 ^ 53 := by
      apply roundHalfEven_le
      rw [div_le_iff₀ hEl]
      have : ((2 ^ 53 : Int) : ℚ) * 2 ^ (l - 52) = 2 ^ (l + 1) := by
        rw [show ((2 ^ 53 : Int) : ℚ) = 2 ^ (53 : Int) by norm_cast, ← zpow_add₀ (by norm_num)]
        congr 1; ring
      rw [this]; exact hx1.le
    have h2 : 2 ^ 52 ≤ roundHalfEven (y / 2 ^ (m - 52)) := by
      apply le_roundHalfEven
      rw [le_div_iff₀ hEm]
      have : ((2 ^ 52 : Int) : ℚ) * 2 ^ (m - 52) = 2 ^ m := by
        rw [show ((2 ^ 52 : Int) : ℚ) = 2 ^ (52 : Int) by norm_cast, ← zpow_add₀ (by norm_num)]
        congr 1; ring
      rw [this]; exact hy1
    have h1' : (roundHalfEven (x / 2 ^ (l - 52)) : ℚ) ≤ 2 ^ 53 := by exact_mod_cast h1
    have h2' : (2 ^ 52 : ℚ) ≤ roundHalfEven (y / 2 ^ (m - 52)) := by exact_mod_cast h2
    calc (roundHalfEven (x / 2 ^ (l - 52)) : ℚ) * 2 ^ (l - 52) ≤ 2 ^ 53 * 2 ^ (l - 52) := mul_le_mul_of_nonneg_right h1' hEl.le
      _ = 2 ^ (l + 1) := by
        rw [show (2 : ℚ) ^ 53 = 2 ^ (53 : Int) by norm_cast, ← zpow_add₀ (by norm_num)]
        congr 1; ring
      _ ≤ 2 ^ m := zpow_le_zpow_right₀ (by norm_num) hlt
      _ = 2 ^ 52 * 2 ^ (m - 52) := by
        rw [show (2 : ℚ) ^ 52 = 2 ^ (52 : Int) by norm_cast, ← zpow_add₀ (by norm_num)]
        congr 1; ring
      _ ≤ _ := mul_le_mul_of_nonneg_right h2' hEm.le

/-- Rounding is monotone. -/
theorem roundDouble_mono {x y : ℚ} (h : x ≤ y) : roundDouble x ≤ roundDouble y := by
  rcases lt_trichotomy x 0 with hx | hx | hx
  · rcases lt_or_ge y 0 with hy | hy
    · have := mono_pos (x := -y) (y := -x) (by linarith) (by linarith)
      rw [roundDouble_neg, roundDouble_neg] at this
      linarith
    · have h1 := roundDouble_nonneg hy
      have h2 := roundDouble_nonneg (x := -x) (by linarith)
      rw [roundDouble_neg] at h2
      linarith
  · subst hx
    rw [roundDouble_zero]
    exact roundDouble_nonneg h
  · exact mono_pos hx h

/-- Numbers with at most 53 significant bits are not changed by rounding. -/
theorem roundDouble_exact (m j : Int) (hm : |m| < 2 ^ 53) : roundDouble ((m : ℚ) * 2 ^ j) = (m : ℚ) * 2 ^ j := by
  by_cases h0 : m = 0
  · subst h0; simp [roundDouble_zero]
  have hm0 : (m : ℚ) ≠ 0 := by exact_mod_cast h0
  have hz : (0 : ℚ) < 2 ^ j := zpow_pos (by norm_num) _
  have hx : (m : ℚ) * 2 ^ j ≠ 0 := mul_ne_zero hm0 hz.ne'
  have habs : |(m : ℚ) * 2 ^ j| = |(m : ℚ)| * 2 ^ j := by rw [abs_mul, abs_of_pos hz]
  have hpos : 0 < |(m : ℚ) * 2 ^ j| := abs_pos.2 hx
  simp only [roundDouble, if_neg hx]
  generalize hl : Int.log 2 |(m : ℚ) * 2 ^ j| = l
  have hle : l - 52 ≤ j := by
    have h1 := Int.zpow_log_le_self (b := 2) (by norm_num) hpos
    rw [hl, habs] at h1
    push_cast at h1
    have h2 : |(m : ℚ)| < 2 ^ (53 : Int) := by rw [← Int.cast_abs]; exact_mod_cast hm
    have h3 : (2 : ℚ) ^ l < 2 ^ (53 + j) := by
      rw [zpow_add₀ (by norm_num)]
      exact lt_of_le_of_lt h1 (mul_lt_mul_of_pos_right h2 hz)
    have := (zpow_lt_zpow_iff_right₀ (by norm_num : (1 : ℚ) < 2)).mp h3
    omega
  obtain ⟨k, hk⟩ : ∃ k : Nat, j = (l - 52) + k := ⟨(j - (l - 52)).toNat, by omega⟩
  have hE : (2 : ℚ) ^ (l - 52) ≠ 0 := (zpow_pos (by norm_num) _).ne'
  have hdiv : (m : ℚ) * 2 ^ j / 2 ^ (l - 52) = ((m * 2 ^ k : Int) : ℚ) := by
    rw [hk, zpow_add₀ (by norm_num), zpow_natCast]
    push_cast
    field_simp
  rw [hdiv, roundHalfEven_int, ← hdiv]
  field_simp

/-- Half-integers below `2^52`. -/
theorem roundDouble_half {m : Int} (hm : |m| < 2 ^ 53) : roundDouble ((m : ℚ) / 2) = (m : ℚ) / 2 := by
  have := roundDouble_exact m (-1) hm
  rw [zpow_neg, zpow_one] at this
  exact this

end Scipp.Numeric
