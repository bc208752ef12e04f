import Verif.Model.ToUnit
import Verif.Lemmas.Double
/-!
C59: conversion of the unit of integers and datetimes.
-/
namespace Scipp.Props
open Scipp Numeric ToUnit

private theorem trunc_mono {x y : ℚ} (h : x ≤ y) : trunc x ≤ trunc y := by
  unfold trunc
  split_ifs with h1 h2 h2
  · exact Int.floor_mono h
  · exact absurd (h1.trans h) h2
  · have h3 : ⌈x⌉ ≤ 0 := by rw [Int.ceil_le]; push_cast; linarith
    have h4 : 0 ≤ ⌊y⌋ := Int.floor_nonneg.2 h2
    omega
  · exact Int.ceil_mono h

private theorem trunc_err (y : ℚ) : |(trunc y : ℚ)| ≤ |y| ∧ |y| < |(trunc y : ℚ)| + 1 := by
  unfold trunc
  split_ifs with h
  · have h1 := Int.floor_le y
    have h2 := Int.lt_floor_add_one y
    have h3 : (0 : ℚ) ≤ ⌊y⌋ := by exact_mod_cast Int.floor_nonneg.2 h
    rw [abs_of_nonneg h, abs_of_nonneg h3]
    exact ⟨h1, h2⟩
  · have h1 := Int.le_ceil y
    have h2 := Int.ceil_lt_add_one y
    have h3 : (⌈y⌉ : ℚ) ≤ 0 := by
      have : ⌈y⌉ ≤ 0 := by rw [Int.ceil_le]; push_cast; linarith
      exact_mod_cast this
    rw [abs_of_neg (by linarith : y < 0), abs_of_nonpos h3]
    constructor <;> linarith

private theorem safeCast_mono (bits : Nat) {x y : ℚ} (h : x ≤ y) : safeCast bits x ≤ safeCast bits y := by
  have hB : (0 : ℚ) < 2 ^ (bits - 1) := by positivity
  have hc : ((2 ^ (bits - 1) : Int) : ℚ) = 2 ^ (bits - 1) := by push_cast; rfl
  have hlo : ∀ z : ℚ, |z| < 2 ^ (bits - 1) → -2 ^ (bits - 1) ≤ trunc z ∧ trunc z ≤ 2 ^ (bits - 1) - 1 := by
    intro z hz
    have h1 := (trunc_err z).1
    have h2 : |(trunc z : ℚ)| < ((2 ^ (bits - 1) : Int) : ℚ) := by rw [hc]; exact lt_of_le_of_lt h1 hz
    rw [← Int.cast_abs] at h2
    have h3 : |trunc z| < 2 ^ (bits - 1) := by exact_mod_cast h2
    rw [abs_lt] at h3
    omega
  have hpow : (1 : Int) ≤ 2 ^ (bits - 1) := by
    have : (0 : Int) < 2 ^ (bits - 1) := by positivity
    omega
  unfold safeCast
  by_cases h1 : |x| < 2 ^ (bits - 1)
  · rw [if_pos h1]
    by_cases h2 : |y| < 2 ^ (bits - 1)
    · rw [if_pos h2]; exact trunc_mono h
    · rw [if_neg h2]
      rw [not_lt, le_abs] at h2
      have h1' := abs_lt.1 h1
      rw [if_neg (by rw [not_lt]; rcases h2 with h2 | h2 <;> linarith [h1'.1])]
      exact (hlo x h1).2
  · rw [if_neg h1]
    rw [not_lt, le_abs] at h1
    by_cases h2 : |y| < 2 ^ (bits - 1)
    · rw [if_pos h2]
      have h2' := abs_lt.1 h2
      rw [if_pos (by rcases h1 with h1 | h1 <;> linarith [h2'.2])]
      exact (hlo y h2).1
    · rw [if_neg h2]
      split_ifs
      · omega
      · omega
      · linarith
      · omega

private theorem half_mono {x y : ℚ} (h : x ≤ y) : (if x < 0 then x - 1 / 2 else x + 1 / 2) ≤ (if y < 0 then y - 1 / 2 else y + 1 / 2) := by
  split_ifs <;> linarith

private theorem roundDbl_mono (bits : Nat) {x y : ℚ} (h : x ≤ y) : roundDbl bits x ≤ roundDbl bits y :=
  safeCast_mono bits (roundDouble_mono (half_mono h))

private theorem roundInt_eq (bits : Nat) (x : Int) : roundInt bits x = roundDbl bits (roundDouble x) := by
  unfold roundInt roundDbl
  congr 2
  by_cases h : x < 0
  · have h1 : roundDouble (x : ℚ) < 0 := by
      have h2 := roundDouble_err (x : ℚ)
      have h3 : (x : ℚ) < 0 := by exact_mod_cast h
      rw [abs_of_neg h3, abs_le] at h2
      have : -(x : ℚ) / 2 ^ 53 ≤ -(x : ℚ) / 2 := by
        apply div_le_div_of_nonneg_left <;> linarith
      linarith [h2.2]
    rw [if_pos h, if_pos h1]
  · have h1 : ¬ roundDouble (x : ℚ) < 0 := by
      rw [not_lt]
      exact roundDouble_nonneg (by exact_mod_cast not_lt.1 h)
    rw [if_neg h, if_neg h1]

/-- C59: the conversion is monotone: the order of integers or datetimes is never reversed, whatever the (non-negative) factor and the
magnitude of the numbers. -/
theorem C59_monotone (bits : Nat) (f : Factor) (hf : match f with | .int k => 0 ≤ k | .dbl s => 0 ≤ s) (x y a b : Int) (h : x ≤ y)
    (hx : convert bits f x = .ok a) (hy : convert bits f y = .ok b) : a ≤ b := by
  cases f with
  | int k =>
    simp only at hf
    simp only [convert] at hx hy
    split at hx
    · split at hy
      · injection hx with hx
        injection hy with hy
        rw [← hx, ← hy, roundInt_eq, roundInt_eq]
        have : x * k ≤ y * k := Int.mul_le_mul_of_nonneg_right h hf
        exact roundDbl_mono bits (roundDouble_mono (by exact_mod_cast this))
      · cases hy
    · cases hx
  | dbl s =>
    simp only at hf
    simp only [convert] at hx hy
    injection hx with hx
    injection hy with hy
    rw [← hx, ← hy]
    refine roundDbl_mono bits (roundDouble_mono (mul_le_mul_of_nonneg_right (roundDouble_mono ?_) hf))
    exact_mod_cast h

private theorem trunc_half {n : Int} (y : ℚ) (h : y = if n < 0 then (n : ℚ) - 1 / 2 else (n : ℚ) + 1 / 2) : trunc y = n := by
  subst h
  unfold trunc
  by_cases hn : n < 0
  · have h0 : (n : ℚ) < 0 := by exact_mod_cast hn
    rw [if_pos hn, if_neg (by rw [not_le]; linarith), Int.ceil_eq_iff]
    constructor <;> linarith
  · have h0 : (0 : ℚ) ≤ n := by exact_mod_cast not_lt.1 hn
    rw [if_neg hn, if_pos (by linarith), Int.floor_eq_iff]
    constructor <;> linarith

/-- Rounding an integer to an integer gives the integer, below `2^52`. -/
private theorem roundInt_exact {bits : Nat} (hb : bits = 64) {n : Int} (hn : |n| < 2 ^ 52) : roundInt bits n = n := by
  subst hb
  unfold roundInt
  rw [abs_lt] at hn
  rw [roundDouble_int (by rw [abs_lt]; omega)]
  have hq : -(2 ^ 52 : ℚ) < n ∧ (n : ℚ) < 2 ^ 52 := by
    constructor
    · exact_mod_cast hn.1
    · exact_mod_cast hn.2
  have key : roundDouble (if n < 0 then (n : ℚ) - 1 / 2 else (n : ℚ) + 1 / 2) = if n < 0 then (n : ℚ) - 1 / 2 else (n : ℚ) + 1 / 2 := by
    split
    · have := roundDouble_half (m := 2 * n - 1) (by rw [abs_lt]; omega)
      push_cast at this
      rw [show (n : ℚ) - 1 / 2 = (2 * n - 1) / 2 by ring]; exact this
    · have := roundDouble_half (m := 2 * n + 1) (by rw [abs_lt]; omega)
      push_cast at this
      rw [show (n : ℚ) + 1 / 2 = (2 * n + 1) / 2 by ring]; exact this
  rw [key]
  unfold safeCast
  rw [if_pos, trunc_half _ rfl]
  rw [abs_lt]
  have e63 : (2 : ℚ) ^ (64 - 1) = 2 ^ 63 := by norm_num
  rw [e63]
  split <;> constructor <;> norm_num at hq ⊢ <;> linarith

/-- The factor is found in spite of rounding errors: if the exact factor is an integer up to a million or a multiple of a million and the
ratio of the multipliers is off by a relative error of at most `2^-50`, the exact integer is used. -/
private theorem factor_int {k : Int} {scale : ℚ} (hk : 1 ≤ k) (hs : |scale - k| ≤ k / 2 ^ 50)
    (h6 : (k < 1000000 ∨ (k = 1000000 ∧ scale ≤ 1000000)) ∨ ∃ j, k = 1000000 * j ∧ j ≤ 2 ^ 40 ∧ 1000000 < scale) : factor true scale = .int k := by
  have hkq : (1 : ℚ) ≤ k := by exact_mod_cast hk
  -- the common part
  have common : ∀ (base : ℚ) (j : Int), 1 ≤ j → j ≤ 2 ^ 40 → |base - j| ≤ j / 2 ^ 48 → stdRound base = j ∧
      |roundDouble (base - stdRound base)| < roundDouble (roundDouble (1 / 1000000000000) * |base|) := by
    intro base j hj1 hj2 hb
    have hjq : (1 : ℚ) ≤ j := by exact_mod_cast hj1
    have hjq2 : (j : ℚ) ≤ 2 ^ 40 := by exact_mod_cast hj2
    have hb' := abs_le.1 hb
    have hsmall : (j : ℚ) / 2 ^ 48 ≤ 1 / 4 := by
      rw [div_le_iff₀ (by positivity)]
      norm_num at hjq2 ⊢
      linarith
    have hst : stdRound base = j := by
      unfold stdRound
      rw [Int.floor_eq_iff]
      constructor <;> linarith [hb'.1, hb'.2]
    refine ⟨hst, ?_⟩
    rw [hst]
    have hbpos : (3 : ℚ) / 4 * j ≤ base := by
      have : (j : ℚ) / 2 ^ 48 ≤ j / 4 := by
        apply div_le_div_of_nonneg_left <;> norm_num <;> linarith
      linarith [hb'.1]
    have e1 := roundDouble_err (base - j)
    have e2 := roundDouble_err (1 / 1000000000000)
    have e3 := roundDouble_err (roundDouble (1 / 1000000000000) * |base|)
    rw [abs_of_pos (by linarith : (0 : ℚ) < base)] at e3 ⊢
    rw [abs_of_pos (by norm_num : (0 : ℚ) < 1 / 1000000000000), abs_le] at e2
    generalize roundDouble (1 / 1000000000000) = t at *
    have ht : (1 : ℚ) / 2000000000000 ≤ t := by norm_num at e2 ⊢; linarith [e2.1]
    have htb : 0 < t * base := by
      apply mul_pos <;> linarith
    rw [abs_of_pos htb, abs_le] at e3
    have h5 : (1 : ℚ) / 2000000000000 * (3 / 4 * j) ≤ t * base := by
      apply mul_le_mul ht hbpos <;> linarith
    have h7 : |roundDouble (base - j)| ≤ |base - j| + |base - j| / 2 ^ 53 := by
      have := abs_sub_abs_le_abs_sub (roundDouble (base - j)) (base - j)
      linarith
    have h8 : |base - j| / 2 ^ 53 ≤ |base - j| := by
      apply div_le_self (abs_nonneg _); norm_num
    have h9 : t * base / 2 ^ 53 ≤ t * base / 2 := by
      apply div_le_div_of_nonneg_left <;> linarith
    have h10 : 2 * ((j : ℚ) / 2 ^ 48) < 1 / 2 * (1 / 2000000000000 * (3 / 4 * j)) := by
      have hjp : (0 : ℚ) < j := by linarith
      rw [show 2 * ((j : ℚ) / 2 ^ 48) = j * (2 / 2 ^ 48) by ring,
        show (1 : ℚ) / 2 * (1 / 2000000000000 * (3 / 4 * j)) = j * (1 / 2 * (1 / 2000000000000 * (3 / 4))) by ring]
      apply mul_lt_mul_of_pos_left _ hjp
      norm_num
    linarith [e3.1]
  rcases h6 with h6 | ⟨j, hkj, hj, hbig⟩
  · have hle : ¬ scale > 1000000 := by
      rw [gt_iff_lt, not_lt]
      rcases h6 with h6 | h6
      · have h7 : (k : ℚ) ≤ 999999 := by exact_mod_cast (by omega : k ≤ 999999)
        have := (abs_le.1 hs).2
        have : (k : ℚ) / 2 ^ 50 ≤ 1 := by
          rw [div_le_iff₀ (by positivity)]; norm_num; linarith
        linarith
      · exact h6.2
    have hk40 : k ≤ 2 ^ 40 := by
      have : k ≤ 1000000 := by omega
      norm_num; omega
    obtain ⟨c1, c2⟩ := common scale k hk hk40 (hs.trans (by
      apply div_le_div_of_nonneg_left <;> norm_num <;> linarith))
    unfold factor baseScale
    simp only [if_neg hle]
    rw [if_pos c2, c1]
    simp
  · have hj1 : 1 ≤ j := by omega
    have hjq : (1 : ℚ) ≤ j := by exact_mod_cast hj1
    have hkq' : (k : ℚ) = 1000000 * j := by rw [hkj]; push_cast; rfl
    have hb : |roundDouble (scale * roundDouble (1 / 1000000)) - j| ≤ j / 2 ^ 48 := by
      have e1 := roundDouble_err (scale * roundDouble (1 / 1000000))
      have e2 := roundDouble_err (1 / 1000000)
      rw [abs_of_pos (by norm_num : (0 : ℚ) < 1 / 1000000)] at e2
      generalize roundDouble (1 / 1000000) = t at *
      have hs' := abs_le.1 hs
      have e2' := abs_le.1 e2
      rw [hkq'] at hs' hs
      have hsc : |scale| ≤ 2 * (1000000 * j) := by
        rw [abs_le]
        have : 1000000 * (j : ℚ) / 2 ^ 50 ≤ 1000000 * j := by apply div_le_self <;> norm_num; linarith
        constructor <;> linarith
      -- scale * t - j = (scale - 10^6 j) t + 10^6 j (t - 10^-6)
      have hdecomp : scale * t - j = (scale - 1000000 * j) * t + 1000000 * j * (t - 1 / 1000000) := by ring
      have ht : |t| ≤ 1 / 1000000 * (1 + 1 / 2 ^ 53) := by
        rw [abs_le]; constructor <;> norm_num at e2' ⊢ <;> linarith [e2'.1, e2'.2]
      have h1 : |scale * t - j| ≤ j / 2 ^ 49 := by
        rw [hdecomp]
        refine (abs_add_le _ _).trans ?_
        rw [abs_mul, abs_mul, abs_of_pos (by linarith : (0 : ℚ) < 1000000 * j)]
        have a1 : |scale - 1000000 * j| * |t| ≤ (1000000 * j / 2 ^ 50) * (1 / 1000000 * (1 + 1 / 2 ^ 53)) :=
          mul_le_mul hs ht (abs_nonneg _) (by positivity)
        have a2 : 1000000 * (j : ℚ) * |t - 1 / 1000000| ≤ 1000000 * j * (1 / 1000000 / 2 ^ 53) :=
          mul_le_mul_of_nonneg_left e2 (by linarith)
        have a3 : (1000000 * (j : ℚ) / 2 ^ 50) * (1 / 1000000 * (1 + 1 / 2 ^ 53)) + 1000000 * j * (1 / 1000000 / 2 ^ 53) =
            j * ((1 / 2 ^ 50) * (1 + 1 / 2 ^ 53) + 1 / 2 ^ 53) := by ring
        have a4 : (j : ℚ) * ((1 / 2 ^ 50) * (1 + 1 / 2 ^ 53) + 1 / 2 ^ 53) ≤ j * (1 / 2 ^ 49) :=
          mul_le_mul_of_nonneg_left (by norm_num) (by linarith)
        have a5 : (j : ℚ) * (1 / 2 ^ 49) = j / 2 ^ 49 := by ring
        linarith
      have h2 : |scale * t| ≤ 2 * j := by
        have := abs_sub_abs_le_abs_sub (scale * t) (j : ℚ)
        rw [abs_of_pos (by linarith : (0 : ℚ) < j)] at this
        have : (j : ℚ) / 2 ^ 49 ≤ j := by apply div_le_self <;> norm_num; linarith
        linarith
      have h3 : |scale * t| / 2 ^ 53 ≤ 2 * j / 2 ^ 53 := div_le_div_of_nonneg_right h2 (by positivity)
      have h4 : |roundDouble (scale * t) - j| ≤ |roundDouble (scale * t) - scale * t| + |scale * t - j| := abs_sub_le _ _ _
      have h5 : (j : ℚ) / 2 ^ 49 + 2 * j / 2 ^ 53 ≤ j / 2 ^ 48 := by
        rw [show (j : ℚ) / 2 ^ 49 + 2 * j / 2 ^ 53 = j * (1 / 2 ^ 49 + 2 / 2 ^ 53) by ring, show (j : ℚ) / 2 ^ 48 = j * (1 / 2 ^ 48) by ring]
        exact mul_le_mul_of_nonneg_left (by norm_num) (by linarith)
      linarith
    obtain ⟨c1, c2⟩ := common _ j hj1 hj hb
    unfold factor baseScale
    simp only [if_pos (show scale > 1000000 from hbig)]
    rw [if_pos c2, c1, hkj]
    simp

/-- C59: converting to a unit that is smaller by an integral factor `k` multiplies 64-bit integers and datetimes exactly by this factor, even
though the ratio of the multipliers of the units may be off by a relative error of up to `2^-50`. The factor is below a million or a multiple
of a million. Missing for the full claim: results of `2^52` and more, see `C59_wrong_for_large`. -/
theorem C59_exact_partial (k : Int) (scale : ℚ) (hk : 1 ≤ k) (hs : |scale - k| ≤ k / 2 ^ 50)
    (h6 : k < 1000000 ∨ ∃ j, k = 1000000 * j ∧ j ≤ 2 ^ 40)
    (x : Int) (hx : |x * k| < 2 ^ 52) : convert 64 (factor true scale) x = .ok (x * k) := by
  have hcases : (k < 1000000 ∨ (k = 1000000 ∧ scale ≤ 1000000)) ∨ ∃ j, k = 1000000 * j ∧ j ≤ 2 ^ 40 ∧ 1000000 < scale := by
    rcases h6 with h6 | ⟨j, hj1, hj2⟩
    · exact .inl (.inl h6)
    · by_cases hb : 1000000 < scale
      · exact .inr ⟨j, hj1, hj2, hb⟩
      · left; right
        refine ⟨?_, not_lt.1 hb⟩
        by_contra hne
        have hj : 2 ≤ j := by omega
        have hjq : (2 : ℚ) ≤ j := by exact_mod_cast hj
        have hkq : (k : ℚ) = 1000000 * j := by rw [hj1]; push_cast; rfl
        have h1 := (abs_le.1 hs).1
        have h2 : (k : ℚ) / 2 ^ 50 ≤ k / 4 := by
          apply div_le_div_of_nonneg_left <;> norm_num; linarith
        rw [not_lt] at hb
        linarith
  rw [factor_int hk hs hcases]
  simp only [convert]
  have h := abs_lt.1 hx
  rw [if_pos (by unfold fitsInt64; omega), roundInt_exact rfl hx]

/-- Seconds to nanoseconds: the ratio of the multipliers is not an integer (`1 / 1e-9` is `999999999.9999999`). -/
example : roundDouble (1 / roundDouble (1 / 1000000000)) ≠ 1000000000 ∧
    factor true (roundDouble (1 / roundDouble (1 / 1000000000))) = .int 1000000000 := by decide +kernel

example := C59_exact_partial 1000000000 (roundDouble (1 / roundDouble (1 / 1000000000))) (by decide) (by decide +kernel)
  (.inr ⟨1000, by decide, by decide⟩) (-4000000) (by decide)

/-- C59 is wrong for results of `2^52` and more, where adding `0.5` is not exact in `double`: the datetime 1700000000000001 µs (in the year
2023) is converted to 1700000000000001024 ns, and an odd number above `2^52` is increased by one. -/
theorem C59_wrong_for_large :
    convert 64 (factor true 1000) 1700000000000001 = .ok 1700000000000001024 ∧
    convert 64 (factor true 3) 1501199875790167 = .ok 4503599627370502 ∧ 1501199875790167 * 3 = (4503599627370501 : Int) := by
  refine ⟨by decide +kernel, by decide +kernel, by decide⟩

private theorem roundDbl_err {y : ℚ} (hy : |y| < 2 ^ 62) : |(roundDbl 64 y : ℚ) - y| ≤ 1 / 2 + (|y| + 1) / 2 ^ 53 := by
  have key : ∀ z : ℚ, 0 ≤ z → z < 2 ^ 62 → |((⌊roundDouble (z + 1 / 2)⌋ : Int) : ℚ) - z| ≤ 1 / 2 + (z + 1) / 2 ^ 53 ∧
      0 ≤ roundDouble (z + 1 / 2) ∧ roundDouble (z + 1 / 2) < 2 ^ 63 := by
    intro z h0 h1
    have e := roundDouble_err (z + 1 / 2)
    rw [abs_of_pos (by linarith : (0 : ℚ) < z + 1 / 2)] at e
    have e' := abs_le.1 e
    have f1 := Int.floor_le (roundDouble (z + 1 / 2))
    have f2 := Int.lt_floor_add_one (roundDouble (z + 1 / 2))
    have h2 : (z + 1 / 2) / 2 ^ 53 ≤ (z + 1) / 2 ^ 53 := div_le_div_of_nonneg_right (by linarith) (by positivity)
    refine ⟨abs_le.2 ⟨by linarith [e'.1], by linarith [e'.2]⟩, roundDouble_nonneg (by linarith), ?_⟩
    have h3 : (z + 1 / 2) / 2 ^ 53 ≤ (z + 1 / 2) / 2 := by
      apply div_le_div_of_nonneg_left <;> norm_num; linarith
    norm_num at h1 ⊢
    linarith [e'.2]
  have hB : (2 : ℚ) ^ (64 - 1) = 2 ^ 63 := by norm_num
  unfold roundDbl safeCast
  by_cases h : y < 0
  · rw [if_pos h]
    have hz : 0 ≤ -y := by linarith
    rw [abs_of_neg h] at hy ⊢
    obtain ⟨k1, k2, k3⟩ := key (-y) hz hy
    have hneg : roundDouble (y - 1 / 2) = -roundDouble (-y + 1 / 2) := by
      rw [← roundDouble_neg]; congr 1; ring
    rw [hneg, abs_neg, abs_of_nonneg k2, if_pos (by rw [hB]; exact k3)]
    have ht : trunc (-roundDouble (-y + 1 / 2)) = -⌊roundDouble (-y + 1 / 2)⌋ := by
      unfold trunc
      split_ifs with h5
      · have : roundDouble (-y + 1 / 2) = 0 := by linarith
        rw [this]; simp
      · rw [Int.ceil_neg]
    rw [ht]
    push_cast
    rw [show -((⌊roundDouble (-y + 1 / 2)⌋ : Int) : ℚ) - y = -(((⌊roundDouble (-y + 1 / 2)⌋ : Int) : ℚ) - -y) by ring, abs_neg]
    · exact k1
  · rw [if_neg h]
    rw [not_lt] at h
    rw [abs_of_nonneg h] at hy ⊢
    obtain ⟨k1, k2, k3⟩ := key y h hy
    rw [abs_of_nonneg k2, if_pos (by rw [hB]; exact k3)]
    unfold trunc
    rw [if_pos k2]
    exact k1

/-- C59: conversion with a factor `q` that is not an integer, for example to a larger unit, rounds to a nearest integer: the result differs
from the exact value `x * q` by at most one half, plus a relative error of `2^-50`. Missing for the full claim: ties need not be rounded away
from zero, see `C59_tie`. -/
theorem C59_nearest_partial (q scale : ℚ) (hq : 0 ≤ q) (hs : |scale - q| ≤ q / 2 ^ 52) (x : Int) (hx : |x * q| < 2 ^ 61)
    (hf : factor true scale = .dbl scale) :
    ∃ r, convert 64 (factor true scale) x = .ok r ∧ |(r : ℚ) - x * q| ≤ 1 / 2 + (|x * q| + 1) / 2 ^ 50 := by
  rw [hf]
  refine ⟨_, rfl, ?_⟩
  have e1 := roundDouble_err (x : ℚ)
  have e2 := roundDouble_err (roundDouble x * scale)
  generalize roundDouble (x : ℚ) = X at *
  have hd : X * scale - x * q = (X - x) * scale + x * (scale - q) := by ring
  have hsc : |scale| ≤ q * (1 + 1 / 2 ^ 52) := by
    have := abs_sub_abs_le_abs_sub scale q
    rw [abs_of_nonneg hq] at this
    linarith
  have hA : |(x : ℚ) * q| = |(x : ℚ)| * q := by rw [abs_mul, abs_of_nonneg hq]
  have hA0 : 0 ≤ |(x : ℚ) * q| := abs_nonneg _
  have d1 : |X * scale - x * q| ≤ |(x : ℚ) * q| * (1 / 2 ^ 51) := by
    rw [hd]
    refine (abs_add_le _ _).trans ?_
    rw [abs_mul, abs_mul]
    have a1 : |X - x| * |scale| ≤ |(x : ℚ)| / 2 ^ 53 * (q * (1 + 1 / 2 ^ 52)) := mul_le_mul e1 hsc (abs_nonneg _) (by positivity)
    have a2 : |(x : ℚ)| * |scale - q| ≤ |(x : ℚ)| * (q / 2 ^ 52) := mul_le_mul_of_nonneg_left hs (abs_nonneg _)
    have a3 : |(x : ℚ)| / 2 ^ 53 * (q * (1 + 1 / 2 ^ 52)) + |(x : ℚ)| * (q / 2 ^ 52) =
        |(x : ℚ)| * q * (1 / 2 ^ 53 * (1 + 1 / 2 ^ 52) + 1 / 2 ^ 52) := by ring
    have a4 : |(x : ℚ)| * q * (1 / 2 ^ 53 * (1 + 1 / 2 ^ 52) + 1 / 2 ^ 52) ≤ |(x : ℚ)| * q * (1 / 2 ^ 51) :=
      mul_le_mul_of_nonneg_left (by norm_num) (by rw [← hA]; exact hA0)
    rw [hA]
    linarith
  have d2 : |X * scale| ≤ |(x : ℚ) * q| * (1 + 1 / 2 ^ 51) := by
    have := abs_sub_abs_le_abs_sub (X * scale) (x * q)
    linarith
  have d3 : |roundDouble (X * scale) - x * q| ≤ |(x : ℚ) * q| * (1 / 2 ^ 51 + (1 + 1 / 2 ^ 51) / 2 ^ 53) := by
    have b1 : |roundDouble (X * scale) - x * q| ≤ |roundDouble (X * scale) - X * scale| + |X * scale - x * q| := abs_sub_le _ _ _
    have b2 : |X * scale| / 2 ^ 53 ≤ |(x : ℚ) * q| * (1 + 1 / 2 ^ 51) / 2 ^ 53 := div_le_div_of_nonneg_right d2 (by positivity)
    have b3 : |(x : ℚ) * q| * (1 / 2 ^ 51 + (1 + 1 / 2 ^ 51) / 2 ^ 53) =
      |(x : ℚ) * q| * (1 / 2 ^ 51) + |(x : ℚ) * q| * (1 + 1 / 2 ^ 51) / 2 ^ 53 := by ring
    linarith
  generalize roundDouble (X * scale) = Y at *
  have d4 : |Y| ≤ |(x : ℚ) * q| * (1 + (1 / 2 ^ 51 + (1 + 1 / 2 ^ 51) / 2 ^ 53)) := by
    have := abs_sub_abs_le_abs_sub Y (x * q)
    linarith
  have hY : |Y| < 2 ^ 62 := by
    norm_num at d4 hx ⊢
    linarith
  have e3 := roundDbl_err hY
  have e4 : |(roundDbl 64 Y : ℚ) - x * q| ≤ |(roundDbl 64 Y : ℚ) - Y| + |Y - x * q| := abs_sub_le _ _ _
  generalize |(x : ℚ) * q| = A at *
  norm_num at d3 d4 e3 ⊢
  linarith

/-- Milliseconds to seconds. -/
example : factor true (roundDouble (1 / 1000)) = .dbl (roundDouble (1 / 1000)) ∧
    convert 64 (factor true (roundDouble (1 / 1000))) (-1500) = .ok (-2) ∧
    convert 64 (factor true (roundDouble (1 / 1000))) 1499 = .ok 1 := by decide +kernel

example := C59_nearest_partial (1 / 1000) (roundDouble (1 / 1000)) (by decide +kernel) (by decide +kernel) (-1500) (by decide +kernel)
  (by decide +kernel)

/-- Multiplying by an integer factor is undefined exactly if the product is not a 64-bit integer. -/
theorem C59_overflow (bits : Nat) (x k : Int) :
    (convert bits (.int k) x = .error .ub ↔ ¬ ∃ b : BitVec 64, b.toInt = x * k) := by
  have h : fitsInt64 (x * k) ↔ ∃ b : BitVec 64, b.toInt = x * k := by
    constructor
    · intro h
      refine ⟨BitVec.ofInt 64 (x * k), ?_⟩
      rw [BitVec.toInt_ofInt, Int.bmod_eq_of_le] <;> (unfold fitsInt64 at h; simp at h ⊢; omega)
    · rintro ⟨b, hb⟩
      have h1 := BitVec.le_toInt b
      have h2 := BitVec.toInt_lt (x := b)
      unfold fitsInt64; omega
  rw [← h]
  simp only [convert]
  split <;> simp_all
example : convert 64 (.int 2) (2 ^ 62) = .error .ub := (C59_overflow 64 (2 ^ 62) 2).2 (by
  rintro ⟨b, hb⟩
  have := BitVec.toInt_lt (x := b)
  omega)
example : convert 64 (.int 1) (-2 ^ 63) ≠ .error .ub := by decide +kernel

/-- A tie that is not rounded away from zero: a unit 98 times as large, `147 / 98 = 1.5` gives 1, but `-1500 / 1000` gives -2. -/
theorem C59_tie : convert 64 (factor true (roundDouble (1 / 98))) 147 = .ok 1 ∧
    convert 64 (factor true (roundDouble (1 / 1000))) (-1500) = .ok (-2) := by decide +kernel

example := C59_monotone 64 (.int 1000) (by decide) 1700000000000001 1700000000000002 1700000000000001024 1700000000000002048 (by decide)
  (by decide +kernel) (by decide +kernel)

variable {n : Nat}

/-- C59: which conversions are done. Conversion to the same unit changes nothing. Otherwise conversions from or to the unit None, between
units of different physical dimension, and of datetimes from or to a unit of a day or more or to a unit that is not a time are refused. -/
theorem C59_refused (sec : Fin n → Int) (dtype : IntType) (values : List Int) (u w : MUnit n) :
    (u = w → toUnit sec dtype values u w = .ok (values, u)) ∧
    (u ≠ w → (u = none ∨ w = none ∨ (∃ a b, u = some a ∧ w = some b ∧ (a.exps ≠ b.exps ∨
      (dtype = .timePoint ∧ (a.exps ≠ sec ∨ 86400 ≤ a.mult ∨ 86400 ≤ b.mult))))) →
      toUnit sec dtype values u w = .error .unit) := by
  constructor
  · rintro rfl
    unfold toUnit
    rw [if_pos rfl]
  · intro hne h
    unfold toUnit
    rw [if_neg (fun hc => hne hc.symm)]
    rcases h with rfl | rfl | ⟨a, b, rfl, rfl, h⟩
    · cases w <;> rfl
    · cases u <;> rfl
    · simp only [quickConvert]
      by_cases he : a.exps = b.exps
      · rw [if_pos he]
        rcases h with h | ⟨hd, h⟩
        · exact absurd he h
        · simp only [hd, if_true]
          unfold greaterThanDays
          by_cases h1 : a.exps ≠ sec
          · rw [if_pos h1]; rfl
          · rw [if_neg h1]
            rw [← he, if_neg h1]
            by_cases h2 : 86400 ≤ a.mult
            · simp [bind, Except.bind, h2, throw, throwThe, MonadExceptOf.throw]
            · rcases h with h | h | h
              · exact absurd h h1
              · exact absurd h h2
              · simp [bind, Except.bind, h, h2, throw, throwThe, MonadExceptOf.throw, pure, Except.pure]
      · rw [if_neg he]

/-- C59: if a conversion is done, every element is converted by itself, with the ratio of the multipliers of the two units. -/
theorem C59_elementwise (sec : Fin n → Int) (dtype : IntType) (values out : List Int) (a b : PreciseUnit n) (w : MUnit n)
    (hne : (some a : MUnit n) ≠ some b) (h : toUnit sec dtype values (some a) (some b) = .ok (out, w)) :
    w = some b ∧ a.exps = b.exps ∧ out.length = values.length ∧
    ∀ i (hi : i < values.length), (out[i]?).map Except.ok =
      some (convert dtype.bits (factor (dtype ≠ .int32) (roundDouble (a.mult / b.mult))) values[i]) := by
  unfold toUnit at h
  rw [if_neg (fun hc => hne hc.symm)] at h
  simp only [quickConvert] at h
  by_cases he : a.exps = b.exps
  · rw [if_pos he] at h
    simp only at h
    have hm : ∃ o, values.mapM (convert dtype.bits (factor (dtype ≠ .int32) (roundDouble (a.mult / b.mult)))) = .ok o ∧ o = out ∧ w = some b := by
      generalize hg : values.mapM (convert dtype.bits (factor (dtype ≠ .int32) (roundDouble (a.mult / b.mult)))) = r at h
      have hr : (r >>= fun o => (pure (o, (some b : MUnit n)) : Except Err _)) = .ok (out, w) := by
        by_cases hd : dtype = .timePoint
        · simp only [hd, if_true] at h
          cases h1 : greaterThanDays sec a with
          | error e => rw [h1] at h; cases h
          | ok t1 =>
            cases h2 : greaterThanDays sec b with
            | error e => rw [h1, h2] at h; cases t1 <;> cases h
            | ok t2 =>
              rw [h1, h2] at h
              cases t1 with
              | true => cases h
              | false =>
                cases t2 with
                | true => cases h
                | false => exact h
        · rw [if_neg hd] at h
          exact h
      cases r with
      | error e => cases hr
      | ok o =>
        have := Except.ok.inj hr
        exact ⟨o, rfl, congrArg Prod.fst this, (congrArg Prod.snd this).symm⟩
    obtain ⟨o, ho, rfl, hw⟩ := hm
    have key : ∀ (f : Int → Except Err Int) (l o : List Int), l.mapM f = .ok o →
        o.length = l.length ∧ ∀ i (hi : i < l.length), (o[i]?).map Except.ok = some (f l[i]) := by
      intro f l
      induction l with
      | nil => intro o h; cases h; exact ⟨rfl, fun i hi => by simp at hi⟩
      | cons x l ih =>
        intro o h
        rw [List.mapM_cons] at h
        cases h1 : f x with
        | error e => rw [h1] at h; cases h
        | ok y =>
          rw [h1] at h
          cases h2 : l.mapM f with
          | error e => rw [h2] at h; cases h
          | ok o' =>
            rw [h2] at h
            have : y :: o' = o := Except.ok.inj h
            subst this
            obtain ⟨i1, i2⟩ := ih o' h2
            refine ⟨by simp [i1], fun i hi => ?_⟩
            cases i with
            | zero => simp [h1]
            | succ i => simpa using i2 i (by simpa using hi)
    obtain ⟨k1, k2⟩ := key _ _ _ ho
    exact ⟨hw, he, k1, k2⟩
  · rw [if_neg he] at h
    cases h

/-- Nanoseconds, seconds and days. -/
private def ns : PreciseUnit 1 := ⟨roundDouble (1 / 1000000000), fun _ => 1⟩
private def sec1 : PreciseUnit 1 := ⟨1, fun _ => 1⟩
private def day : PreciseUnit 1 := ⟨86400, fun _ => 1⟩
private def meter : PreciseUnit 1 := ⟨1, fun _ => 2⟩

example : toUnit (fun _ => 1) .timePoint [1, -4000000] (some sec1) (some ns) = .ok ([1000000000, -4000000000000000], some ns) ∧
    toUnit (fun _ => 1) .timePoint [1] (some day) (some sec1) = .error .unit ∧
    toUnit (fun _ => 1) .int32 [1] (some day) (some sec1) = .ok ([86400], some sec1) ∧
    toUnit (fun _ => 1) .int64 [1] (some meter) (some sec1) = .error .unit := by decide +kernel

example := C59_refused (fun _ => 1) .timePoint [1] (some day) (some sec1)

example := C59_elementwise (fun _ => 1) .timePoint [1, -4000000] [1000000000, -4000000000000000] sec1 ns (some ns) (by decide +kernel)
  (by decide +kernel)

end Scipp.Props
