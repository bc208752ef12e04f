import Verif.Lemmas.Numeric
import Mathlib.Algebra.Field.Basic
import Mathlib.Algebra.GroupWithZero.Basic
import Mathlib.Tactic.Positivity
import Mathlib.Tactic.NormNum
/-!
Property C46: floor division, remainder, and integer powers.
-/
namespace Scipp.Props
open Scipp Numeric

theorem roundHalfEven_int (n : Int) : roundHalfEven n = n := by
  simp [roundHalfEven]

theorem roundHalfEven_err (x : ℚ) : |(roundHalfEven x : ℚ) - x| ≤ 1 / 2 := by
  have h1 := Int.floor_le x
  have h2 := Int.lt_floor_add_one x
  simp only [roundHalfEven]
  rw [abs_le]
  split_ifs with h3 h4 h5 <;> push_cast <;> constructor <;> linarith

theorem roundHalfEven_le {x : ℚ} {n : Int} (h : x ≤ n) : roundHalfEven x ≤ n := by
  have h1 := Int.floor_le x
  by_cases hx : x = n
  · rw [hx, roundHalfEven_int]
  · have hlt : x < n := lt_of_le_of_ne h hx
    have h3 : ⌊x⌋ + 1 ≤ n := Int.add_one_le_of_lt (Int.floor_lt.mpr hlt)
    simp only [roundHalfEven]
    split_ifs <;> omega

theorem le_roundHalfEven {x : ℚ} {n : Int} (h : (n : ℚ) ≤ x) : n ≤ roundHalfEven x := by
  have h3 : n ≤ ⌊x⌋ := Int.le_floor.mpr h
  simp only [roundHalfEven]
  split_ifs <;> omega

/-- Relative error of rounding to `double`. -/
theorem roundDouble_err (x : ℚ) : |roundDouble x - x| ≤ |x| / 2 ^ 53 := by
  by_cases hx : x = 0
  · simp [roundDouble, hx]
  · simp only [roundDouble, if_neg hx]
    have hpos : 0 < |x| := abs_pos.mpr hx
    have hlog := Int.zpow_log_le_self (b := 2) (by norm_num) hpos
    have h2 : (2 : ℚ) ^ (Int.log 2 |x| - 52) = 2 ^ (Int.log 2 |x|) / 2 ^ 52 := by
      rw [zpow_sub₀ (by norm_num)]; rfl
    have hE : (0 : ℚ) < 2 ^ (Int.log 2 |x| - 52) := zpow_pos (by norm_num) _
    generalize he : (2 : ℚ) ^ (Int.log 2 |x| - 52) = E at *
    have herr := roundHalfEven_err (x / E)
    have e1 : (roundHalfEven (x / E) : ℚ) * E - x = ((roundHalfEven (x / E) : ℚ) - x / E) * E := by
      field_simp
    rw [e1, abs_mul, abs_of_pos hE]
    have h3 : |(roundHalfEven (x / E) : ℚ) - x / E| * E ≤ 1 / 2 * E := mul_le_mul_of_nonneg_right herr hE.le
    push_cast at hlog
    rw [h2] at h3 ⊢
    have : (1 : ℚ) / 2 * (2 ^ (Int.log 2 |x|) / 2 ^ 52) ≤ |x| / 2 ^ 53 := by
      have : (1 : ℚ) / 2 * (2 ^ (Int.log 2 |x|) / 2 ^ 52) = 2 ^ (Int.log 2 |x|) / 2 ^ 53 := by ring
      rw [this]
      exact div_le_div_of_nonneg_right hlog (by positivity)
    linarith

/-- For numbers below `2^53`, rounding does not cross integers. -/
theorem roundDouble_between {x : ℚ} (hx : |x| < 2 ^ 53) (n : Int) :
    (x ≤ n → roundDouble x ≤ n) ∧ ((n : ℚ) ≤ x → (n : ℚ) ≤ roundDouble x) := by
  by_cases h0 : x = 0
  · simp [roundDouble, h0]
  · simp only [roundDouble, if_neg h0]
    have hpos : 0 < |x| := abs_pos.mpr h0
    have hlog := Int.zpow_log_le_self (b := 2) (by norm_num) hpos
    push_cast at hlog
    have hlt : Int.log 2 |x| < 53 := by
      have h3 : (2 : ℚ) ^ (Int.log 2 |x|) < 2 ^ (53 : Int) := lt_of_le_of_lt hlog (by exact_mod_cast hx)
      exact (zpow_lt_zpow_iff_right₀ (by norm_num)).mp h3
    obtain ⟨k, hk⟩ : ∃ k : Nat, Int.log 2 |x| - 52 = -(k : Int) := ⟨(52 - Int.log 2 |x|).toNat, by omega⟩
    rw [hk, zpow_neg, zpow_natCast]
    have hK : (0 : ℚ) < 2 ^ k := by positivity
    have e1 : x / (2 ^ k)⁻¹ = x * 2 ^ k := by field_simp
    rw [e1]
    have hc : ((n * 2 ^ k : Int) : ℚ) = (n : ℚ) * 2 ^ k := by push_cast; rfl
    constructor
    · intro h
      have h1 : roundHalfEven (x * 2 ^ k) ≤ n * 2 ^ k := by
        apply roundHalfEven_le
        rw [hc]; exact mul_le_mul_of_nonneg_right h hK.le
      have h2 : (roundHalfEven (x * 2 ^ k) : ℚ) ≤ (n : ℚ) * 2 ^ k := by rw [← hc]; exact_mod_cast h1
      rw [← div_eq_mul_inv, div_le_iff₀ hK]; exact h2
    · intro h
      have h1 : n * 2 ^ k ≤ roundHalfEven (x * 2 ^ k) := by
        apply le_roundHalfEven
        rw [hc]; exact mul_le_mul_of_nonneg_right h hK.le
      have h2 : (n : ℚ) * 2 ^ k ≤ (roundHalfEven (x * 2 ^ k) : ℚ) := by rw [← hc]; exact_mod_cast h1
      rw [← div_eq_mul_inv, le_div_iff₀ hK]; exact h2

theorem roundDouble_int {n : Int} (h : |n| < 2 ^ 53) : roundDouble n = n := by
  have h' : |(n : ℚ)| < 2 ^ 53 := by rw [← Int.cast_abs]; exact_mod_cast h
  obtain ⟨h1, h2⟩ := roundDouble_between h' n
  exact le_antisymm (h1 le_rfl) (h2 le_rfl)

theorem floorDivide_eq {a b : Int} (ha : |a| < 2 ^ 53) (hb : |b| < 2 ^ 53) (h0 : b ≠ 0) :
    floorDivide a b = ⌊(a : ℚ) / b⌋ := by
  simp only [floorDivide, if_neg h0, roundDouble_int ha, roundDouble_int hb]
  have hb0 : (b : ℚ) ≠ 0 := by exact_mod_cast h0
  have hb1 : (1 : ℚ) ≤ |(b : ℚ)| := by rw [← Int.cast_abs]; exact_mod_cast Int.one_le_abs h0
  have ha' : |(a : ℚ)| < 2 ^ 53 := by rw [← Int.cast_abs]; exact_mod_cast ha
  have hq : |(a : ℚ) / b| ≤ |(a : ℚ)| := by
    rw [abs_div]; exact div_le_self (abs_nonneg _) hb1
  have hq' : |(a : ℚ) / b| < 2 ^ 53 := lt_of_le_of_lt hq ha'
  rw [Int.floor_eq_iff]
  refine ⟨(roundDouble_between hq' _).2 (Int.floor_le _), ?_⟩
  have hle := (roundDouble_between hq' (⌊(a : ℚ) / b⌋ + 1)).1 (by push_cast; exact (Int.lt_floor_add_one _).le)
  push_cast at hle
  refine lt_of_le_of_ne hle ?_
  intro heq
  -- the quotient is at least `1 / |b|` away from the next integer
  have hlt := Int.lt_floor_add_one ((a : ℚ) / b)
  generalize hn : ⌊(a : ℚ) / b⌋ = m at heq hlt
  have herr := roundDouble_err ((a : ℚ) / b)
  rw [heq, abs_of_pos (by linarith), abs_div] at herr
  have hgap : 1 / |(b : ℚ)| ≤ (m : ℚ) + 1 - a / b := by
    have hne : ((m + 1) * b - a : Int) ≠ 0 := by
      intro h
      have : (a : ℚ) / b = m + 1 := by
        have h' : (a : ℚ) = (m + 1) * b := by exact_mod_cast (by omega : a = (m + 1) * b)
        rw [h']; field_simp
      linarith
    have h1 : (1 : ℚ) ≤ |(((m + 1) * b - a : Int) : ℚ)| := by rw [← Int.cast_abs]; exact_mod_cast Int.one_le_abs hne
    have h2 : (m : ℚ) + 1 - a / b = (((m + 1) * b - a : Int) : ℚ) / b := by push_cast; field_simp
    have h3 : (m : ℚ) + 1 - a / b = |(((m + 1) * b - a : Int) : ℚ)| / |(b : ℚ)| := by
      rw [← abs_div, ← h2, abs_of_pos (by linarith)]
    rw [h3]
    exact div_le_div_of_nonneg_right h1 (abs_nonneg _)
  have hbp : (0 : ℚ) < |(b : ℚ)| := by linarith
  have h4 : |(a : ℚ)| / |(b : ℚ)| / 2 ^ 53 < 1 / |(b : ℚ)| := by
    rw [div_div, mul_comm, ← div_div]
    exact div_lt_div_of_pos_right (by rw [div_lt_one (by norm_num)]; exact ha') hbp
  linarith

/-- **C46** (division of integers): quotient and remainder belong together, the remainder is between zero and `b`, for operands below
`2^53` in magnitude, despite the division being done in double precision. Partial: the claim is for all 64-bit
integers, for which it is false, see `C46_wrong_beyond_2_53`. -/
theorem C46_floor_divide_partial (a b : Int) (ha : |a| < 2 ^ 53) (hb : |b| < 2 ^ 53) (h0 : b ≠ 0) :
    floorDivide a b * b + remainder a b = a ∧
    ((0 < b → 0 ≤ remainder a b ∧ remainder a b < b) ∧ (b < 0 → b < remainder a b ∧ remainder a b ≤ 0)) := by
  have hf := floorDivide_eq ha hb h0
  have hr : remainder a b = a - ⌊(a : ℚ) / b⌋ * b := by simp only [remainder, if_neg h0, hf]
  refine ⟨by rw [hr, hf]; ring, ?_, ?_⟩
  · intro hpos
    have hp : (0 : ℚ) < b := by exact_mod_cast hpos
    have h1 := Int.floor_le ((a : ℚ) / b)
    have h2 := Int.lt_floor_add_one ((a : ℚ) / b)
    rw [hr]
    generalize ⌊(a : ℚ) / b⌋ = m at *
    rw [le_div_iff₀ hp] at h1
    rw [div_lt_iff₀ hp] at h2
    have h1' : m * b ≤ a := by exact_mod_cast h1
    have h2' : a < (m + 1) * b := by exact_mod_cast h2
    have : (m + 1) * b = m * b + b := by ring
    omega
  · intro hneg
    have hp : (b : ℚ) < 0 := by exact_mod_cast hneg
    have h1 := Int.floor_le ((a : ℚ) / b)
    have h2 := Int.lt_floor_add_one ((a : ℚ) / b)
    rw [hr]
    generalize ⌊(a : ℚ) / b⌋ = m at *
    rw [le_div_iff_of_neg hp] at h1
    rw [div_lt_iff_of_neg hp] at h2
    have h1' : a ≤ m * b := by exact_mod_cast h1
    have h2' : (m + 1) * b < a := by exact_mod_cast h2
    have : (m + 1) * b = m * b + b := by ring
    omega

example := C46_floor_divide_partial (-7) 2 (by decide) (by decide) (by decide)

/-- Beyond `2^53` the remainder is not less than the divisor. -/
theorem C46_wrong_beyond_2_53 : floorDivide (2 ^ 53 + 1) 1 = 2 ^ 53 ∧ remainder (2 ^ 53 + 1) 1 = 1 := by
  have h : roundDouble ((2 ^ 53 + 1 : Int) : ℚ) = 2 ^ 53 := by decide +kernel
  have h1 : roundDouble ((1 : Int) : ℚ) = 1 := by decide +kernel
  have h2 : roundDouble (2 ^ 53) = 2 ^ 53 := by decide +kernel
  have h3 : floorDivide (2 ^ 53 + 1) 1 = 2 ^ 53 := by
    simp only [floorDivide, h, h1, div_one, h2]
    norm_num
  refine ⟨h3, ?_⟩
  simp only [remainder, h3]
  norm_num

/-- Division by zero gives zero for both. -/
theorem C46_by_zero (a : Int) : floorDivide a 0 = 0 ∧ remainder a 0 = 0 := by simp [floorDivide, remainder]

example := C46_by_zero 7

/-- **C46** (powers): binary exponentiation equals repeated multiplication, in every monoid. -/
theorem C46_integer_pow {M : Type} [Monoid M] (base : M) (n : Nat) : integerPow base n = base ^ n := by
  induction n using Nat.strong_induction_on with
  | _ n ih =>
    rw [integerPow]
    split
    · rename_i h; rw [h, pow_zero]
    · split
      · rename_i h; rw [h, pow_one]
      · simp only [ih (n / 2) (by omega)]
        split
        · rename_i h
          rw [← pow_add]; congr 1; omega
        · rename_i h
          rw [mul_assoc, ← pow_add, ← pow_succ']; congr 1; omega

/-- **C46** (powers with negative exponents) in a field. -/
theorem C46_pow {K : Type} [Field K] (base : K) (n : Int) : powInt base n = base ^ n := by
  simp only [powInt, C46_integer_pow]
  split
  · rename_i h
    rw [← zpow_natCast, Int.toNat_of_nonneg h]
  · rename_i h
    rw [← zpow_natCast, Int.toNat_of_nonneg (by omega), zpow_neg, one_div, inv_inv]

example : floorDivide (-7) 2 = -4 ∧ remainder (-7) 2 = 1 ∧ floorDivide 7 (-2) = -4 ∧ remainder 7 (-2) = -1 := by
  have : ∀ a b : Int, |a| < 2 ^ 53 → |b| < 2 ^ 53 → b ≠ 0 →
      floorDivide a b = ⌊(a : ℚ) / b⌋ := fun a b => floorDivide_eq
  have h1 := this (-7) 2 (by decide) (by decide) (by decide)
  have h2 := this 7 (-2) (by decide) (by decide) (by decide)
  have f1 : ⌊((-7 : Int) : ℚ) / (2 : Int)⌋ = -4 := by decide +kernel
  have f2 : ⌊((7 : Int) : ℚ) / (-2 : Int)⌋ = -4 := by decide +kernel
  rw [f1] at h1
  rw [f2] at h2
  simp [remainder, h1, h2]

example : integerPow (3 : Int) 5 = 243 ∧ powInt (2 : ℚ) (-3) = 1 / 8 := by
  rw [C46_integer_pow, C46_pow]; norm_num

end Scipp.Props
