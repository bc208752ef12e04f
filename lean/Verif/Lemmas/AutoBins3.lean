import Verif.Lemmas.AutoBins2

namespace Scipp.AutoBins

open Numeric

/-- A positive `double` is a multiple of a power of two, with 53 bits. -/
theorem double_parts {x : ℚ} (hx : roundDouble x = x) (hp : 0 < x) :
    ∃ (m : Int), x = (m : ℚ) * 2 ^ (Int.log 2 x - 52) ∧ 2 ^ 52 ≤ m ∧ m < 2 ^ 53 := by
  obtain ⟨e, he⟩ : ∃ e, e = Int.log 2 x := ⟨_, rfl⟩
  obtain ⟨m, hm⟩ : ∃ m : Int, x = (m : ℚ) * 2 ^ (e - 52) := by
    have h := hx
    unfold roundDouble at h
    rw [if_neg hp.ne', abs_of_pos hp, ← he] at h
    exact ⟨_, h.symm⟩
  have h1 : (2 : ℚ) ^ e ≤ x := by rw [he]; exact_mod_cast Int.zpow_log_le_self (b := 2) (by norm_num) hp
  have h2 : x < (2 : ℚ) ^ (e + 1) := by rw [he]; exact_mod_cast Int.lt_zpow_succ_log_self (b := 2) (by norm_num) x
  have hpow : (0 : ℚ) < 2 ^ (e - 52) := zpow_pos (by norm_num) _
  have e1 : (2 : ℚ) ^ e = 2 ^ 52 * 2 ^ (e - 52) := by
    rw [← zpow_natCast, ← zpow_add₀ (by norm_num)]; congr 1; push_cast; ring
  have e2 : (2 : ℚ) ^ (e + 1) = 2 ^ 53 * 2 ^ (e - 52) := by
    rw [← zpow_natCast, ← zpow_add₀ (by norm_num)]; congr 1; push_cast; ring
  rw [e1, hm] at h1
  rw [e2, hm] at h2
  have g1 := le_of_mul_le_mul_right h1 hpow
  have g2 := lt_of_mul_lt_mul_right h2 hpow.le
  exact ⟨m, by rw [← he]; exact hm, by exact_mod_cast g1, by exact_mod_cast g2⟩

/-- A larger `double` is larger by at least the spacing at the smaller one. -/
theorem double_gap {x y : ℚ} (hx : roundDouble x = x) (hy : roundDouble y = y) (hp : 0 < x) (h : x < y) : x + 2 ^ (Int.log 2 x - 52) ≤ y := by
  obtain ⟨m, hm, -, -⟩ := double_parts hx hp
  obtain ⟨k, hk, -, -⟩ := double_parts hy (hp.trans h)
  have hl : Int.log 2 x ≤ Int.log 2 y := Int.log_mono_right hp h.le
  obtain ⟨d, hd⟩ := Int.eq_ofNat_of_zero_le (sub_nonneg.2 hl)
  have hpow : (0 : ℚ) < 2 ^ (Int.log 2 x - 52) := zpow_pos (by norm_num) _
  have hy' : y = ((k * 2 ^ d : Int) : ℚ) * 2 ^ (Int.log 2 x - 52) := by
    conv_lhs => rw [hk]
    rw [show Int.log 2 y - 52 = d + (Int.log 2 x - 52) from by omega, zpow_add₀ (by norm_num)]
    push_cast
    rw [zpow_natCast]
    ring
  have h1 : (m : ℚ) * 2 ^ (Int.log 2 x - 52) < ((k * 2 ^ d : Int) : ℚ) * 2 ^ (Int.log 2 x - 52) := by
    rw [← hm, ← hy']; exact h
  have h2 : m < k * 2 ^ d := by exact_mod_cast lt_of_mul_lt_mul_right h1 hpow.le
  have h3 : ((m + 1 : Int) : ℚ) * 2 ^ (Int.log 2 x - 52) ≤ ((k * 2 ^ d : Int) : ℚ) * 2 ^ (Int.log 2 x - 52) :=
    mul_le_mul_of_nonneg_right (by exact_mod_cast h2) hpow.le
  rw [← hy'] at h3
  refine le_trans (le_of_eq ?_) h3
  conv_lhs => rw [hm]
  push_cast
  have : (Int.log 2 ((m : ℚ) * 2 ^ (Int.log 2 x - 52))) = Int.log 2 x := by rw [← hm]
  rw [this]
  ring

theorem double_next {x : ℚ} (hx : roundDouble x = x) (hp : 0 < x) : roundDouble (x + 2 ^ (Int.log 2 x - 52)) = x + 2 ^ (Int.log 2 x - 52) := by
  obtain ⟨e, he⟩ : ∃ e, e = Int.log 2 x := ⟨_, rfl⟩
  obtain ⟨m, hm, h1, h2⟩ := double_parts hx hp
  rw [← he] at hm ⊢
  have h3 : x + 2 ^ (e - 52) = ((m + 1 : Int) : ℚ) * 2 ^ (e - 52) := by rw [hm]; push_cast; ring
  rw [h3]
  by_cases hb : m + 1 < 2 ^ 53
  · exact roundDouble_exact _ _ (by rw [abs_of_nonneg (by omega)]; exact hb)
  · have : m + 1 = 2 ^ 52 * 2 := by omega
    have h4 : ((m + 1 : Int) : ℚ) * 2 ^ (e - 52) = ((2 ^ 52 : Int) : ℚ) * 2 ^ (e - 52 + 1) := by
      rw [this, zpow_add_one₀ (by norm_num)]; push_cast; ring
    rw [h4]
    exact roundDouble_exact _ _ (by norm_num)

/-- The largest `double` smaller than a positive one. -/
theorem double_prev {x : ℚ} (hx : roundDouble x = x) (hp : 0 < x) :
    let b := if x = 2 ^ Int.log 2 x then x - 2 ^ (Int.log 2 x - 53) else x - 2 ^ (Int.log 2 x - 52)
    0 < b ∧ b < x ∧ roundDouble b = b ∧ ∀ y, 0 < y → roundDouble y = y → y < x → y ≤ b := by
  obtain ⟨e, he⟩ : ∃ e, e = Int.log 2 x := ⟨_, rfl⟩
  obtain ⟨m, hm, h1, h2⟩ := double_parts hx hp
  have hpow : (0 : ℚ) < 2 ^ (e - 53) := zpow_pos (by norm_num) _
  have hpow2 : (0 : ℚ) < 2 ^ (e - 52) := zpow_pos (by norm_num) _
  have e1 : (2 : ℚ) ^ e = 2 ^ 53 * 2 ^ (e - 53) := by
    rw [← zpow_natCast, ← zpow_add₀ (by norm_num)]; congr 1; push_cast; ring
  have hb' : ∃ b, 0 < b ∧ b < x ∧ roundDouble b = b ∧ b = if x = 2 ^ e then x - 2 ^ (e - 53) else x - 2 ^ (e - 52) := by
    by_cases hc : x = 2 ^ e
    · rw [if_pos hc]
      refine ⟨_, ?_, by linarith, ?_, rfl⟩
      · rw [hc, e1]; nlinarith
      · rw [hc, e1, show (2 : ℚ) ^ 53 * 2 ^ (e - 53) - 2 ^ (e - 53) = ((2 ^ 53 - 1 : Int) : ℚ) * 2 ^ (e - 53) from by push_cast; ring]
        exact roundDouble_exact _ _ (by norm_num)
    · rw [if_neg hc]
      rw [← he] at hm
      have h3 : x - 2 ^ (e - 52) = ((m - 1 : Int) : ℚ) * 2 ^ (e - 52) := by rw [hm]; push_cast; ring
      refine ⟨_, ?_, by linarith, ?_, rfl⟩
      · rw [h3]
        have : (0 : ℚ) < ((m - 1 : Int) : ℚ) := by exact_mod_cast (by omega : 0 < m - 1)
        positivity
      · rw [h3]
        exact roundDouble_exact _ _ (by rw [abs_of_nonneg (by omega)]; omega)
  rw [← he]
  obtain ⟨b, b1, b2, b3, b4⟩ := hb'
  rw [← b4]
  refine ⟨b1, b2, b3, fun y hy0 hy hyx => ?_⟩
  by_contra hlt
  have hby : b < y := not_le.1 hlt
  have g1 := double_gap b3 hy b1 hby
  have g2 := double_gap b3 hx b1 b2
  -- the spacing at `b` is the distance of `b` and `x`
  have hlog : x ≤ b + 2 ^ (Int.log 2 b - 52) := by
    by_cases hc : x = 2 ^ e
    · rw [if_pos hc] at b4
      have : Int.log 2 b = e - 1 := by
        refine le_antisymm ?_ ?_
        · have h5 : b < (2 : ℚ) ^ e := by rw [← hc]; exact b2
          have := (Int.lt_zpow_iff_log_lt (b := 2) (by norm_num) b1).1 (by exact_mod_cast h5)
          omega
        · refine (Int.zpow_le_iff_le_log (b := 2) (by norm_num) b1).1 ?_
          have : (2 : ℚ) ^ (e - 1) = 2 ^ 52 * 2 ^ (e - 53) := by
            rw [← zpow_natCast, ← zpow_add₀ (by norm_num)]; congr 1; push_cast; ring
          push_cast
          rw [this, b4, hc, e1]
          nlinarith
      rw [this, show e - 1 - 52 = e - 53 from by ring, b4]
      linarith
    · rw [if_neg hc] at b4
      have : Int.log 2 b = e := by
        refine le_antisymm ?_ ?_
        · rw [he]; exact Int.log_mono_right b1 b2.le
        · refine (Int.zpow_le_iff_le_log (b := 2) (by norm_num) b1).1 ?_
          rw [← he] at hm
          have e2 : (2 : ℚ) ^ e = 2 ^ 52 * 2 ^ (e - 52) := by
            rw [← zpow_natCast, ← zpow_add₀ (by norm_num)]; congr 1; push_cast; ring
          have hne : m ≠ 2 ^ 52 := by
            intro h
            apply hc
            rw [e2, hm, h]
            push_cast
            ring
          have h6 : (2 : ℚ) ^ 52 ≤ ((m - 1 : Int) : ℚ) := by exact_mod_cast (by omega : 2 ^ 52 ≤ m - 1)
          push_cast
          rw [e2, b4, hm]
          push_cast at h6
          nlinarith
      rw [this, b4]
      linarith
  linarith

theorem nextUp_least {x : ℚ} (hx : roundDouble x = x) (h0 : x ≠ 0) :
    roundDouble (nextUp x) = nextUp x ∧ ∀ y, roundDouble y = y → x < y → nextUp x ≤ y := by
  rcases lt_or_gt_of_ne h0 with hn | hp
  · have hx' : roundDouble (-x) = -x := by rw [roundDouble_neg, hx]
    obtain ⟨b1, b2, b3, b4⟩ := double_prev hx' (by linarith)
    have hnext : nextUp x = -(if -x = 2 ^ Int.log 2 (-x) then -x - 2 ^ (Int.log 2 (-x) - 53) else -x - 2 ^ (Int.log 2 (-x) - 52)) := by
      unfold nextUp
      rw [if_neg h0, abs_of_neg hn]
      simp only [hn, true_and]
      split_ifs <;> ring
    rw [hnext]
    refine ⟨by rw [roundDouble_neg, b3], fun y hy hxy => ?_⟩
    by_cases hy0 : 0 ≤ y
    · linarith
    · have := b4 (-y) (by linarith) (by rw [roundDouble_neg, hy]) (by linarith)
      linarith
  · have hnext : nextUp x = x + 2 ^ (Int.log 2 x - 52) := by
      unfold nextUp
      rw [if_neg h0, abs_of_pos hp]
      simp only [not_lt.2 hp.le, false_and, if_false]
    rw [hnext]
    exact ⟨double_next hx hp, fun y hy hxy => double_gap hx hy hp hxy⟩

theorem mul_bound {i n : Nat} {s B : Int} (h : i ≤ n) (hb : |(n : Int) * s| ≤ B) : |(i : Int) * s| ≤ B := by
  refine le_trans ?_ hb
  rw [abs_mul, abs_mul]
  exact mul_le_mul_of_nonneg_right (by simpa using h) (abs_nonneg s)

theorem npLinspace_exact (a s : Int) (n : Nat) (hn : 1 ≤ n) (hn2 : n ≤ 2 ^ 53) (ha : |a| ≤ 2 ^ 52) (hs : |(n : Int) * s| ≤ 2 ^ 52) :
    npLinspace a ((a + n * s : Int) : ℚ) (n + 1) = (List.range (n + 1)).map (fun i : Nat => ((a + (i : Int) * s : Int) : ℚ)) := by
  have hd : roundDouble (((a + n * s : Int) : ℚ) - a) = ((n * s : Int) : ℚ) := by
    rw [show ((a + n * s : Int) : ℚ) - a = ((n * s : Int) : ℚ) from by push_cast; ring]
    exact round_int (by linarith)
  have hn' : roundDouble (((n + 1 - 1 : Nat)) : ℚ) = n := by
    have := round_int (m := n) (by rw [abs_of_nonneg (by omega)]; exact_mod_cast hn2)
    simpa using this
  have hn0 : (n : ℚ) ≠ 0 := by positivity
  have hs1 : |s| ≤ 2 ^ 52 := by simpa using mul_bound (i := 1) hn hs
  have hstep : roundDouble (((n * s : Int) : ℚ) / n) = (s : ℚ) := by
    rw [show ((n * s : Int) : ℚ) / n = ((s : Int) : ℚ) from by push_cast; field_simp]
    exact round_int (by linarith)
  unfold npLinspace
  simp only [hd, hn', hstep]
  refine List.map_congr_left fun i hi => ?_
  rw [List.mem_range] at hi
  split_ifs with h1 h2 h3
  · subst h1; simp
  · have : i = n := by omega
    subst this; rfl
  · have : s = 0 := by exact_mod_cast h3
    subst this
    simp only [mul_zero, Int.cast_zero, roundDouble_zero, zero_add, add_zero]
    exact round_int (by linarith)
  · have hi' := mul_bound (i := i) (by omega) hs
    have e1 : roundDouble ((i : ℚ) * s) = ((i * s : Int) : ℚ) := by
      rw [show (i : ℚ) * s = ((i * s : Int) : ℚ) from by push_cast; ring]
      exact round_int (by linarith)
    rw [e1, show ((i * s : Int) : ℚ) + a = ((a + i * s : Int) : ℚ) from by push_cast; ring]
    exact round_int (by have := abs_add_le a (i * s); linarith)

theorem npArangeFloat_exact (a s : Int) (k : Nat) (hs0 : 0 < s) (ha : |a| ≤ 2 ^ 51) (hs : |s| ≤ 2 ^ 51) (hk : |(k : Int) * s| ≤ 2 ^ 51) :
    npArangeFloat a ((a + k * s : Int) : ℚ) s = (List.range k).map (fun i : Nat => ((a + (i : Int) * s : Int) : ℚ)) := by
  have hd : roundDouble (((a + k * s : Int) : ℚ) - a) = ((k * s : Int) : ℚ) := by
    rw [show ((a + k * s : Int) : ℚ) - a = ((k * s : Int) : ℚ) from by push_cast; ring]
    exact round_int (by linarith)
  have hs' : (s : ℚ) ≠ 0 := by exact_mod_cast hs0.ne'
  have hkb : |(k : Int)| ≤ 2 ^ 51 := by
    refine le_trans ?_ hk
    rw [abs_mul]
    nlinarith [abs_nonneg (k : Int), abs_of_pos hs0]
  have hc : roundDouble (((k * s : Int) : ℚ) / s) = ((k : Int) : ℚ) := by
    rw [show ((k * s : Int) : ℚ) / s = ((k : Int) : ℚ) from by push_cast; field_simp]
    exact round_int (by linarith)
  have hdelta : roundDouble (roundDouble ((a : ℚ) + s) - a) = ((s : Int) : ℚ) := by
    rw [show (a : ℚ) + s = ((a + s : Int) : ℚ) from by push_cast; ring, round_int (by have := abs_add_le a s; linarith),
      show ((a + s : Int) : ℚ) - a = ((s : Int) : ℚ) from by push_cast; ring]
    exact round_int (by linarith)
  unfold npArangeFloat
  simp only [hd, hc, hdelta, Int.ceil_intCast, Int.toNat_natCast]
  refine List.map_congr_left fun i hi => ?_
  rw [List.mem_range] at hi
  split_ifs with h1
  · subst h1; simp
  · have hi' := mul_bound (i := i) (by omega) hk
    rw [show (i : ℚ) * s = ((i * s : Int) : ℚ) from by push_cast; ring, round_int (by linarith),
      show (a : ℚ) + ((i * s : Int) : ℚ) = ((a + i * s : Int) : ℚ) from by push_cast; ring]
    exact round_int (by have := abs_add_le a (i * s); linarith)

end Scipp.AutoBins
