import Verif.Model.FloatBins
import Verif.Spec.Histogram
import Verif.Lemmas.Double
import Verif.Props.BinIndex
import Mathlib.Tactic.Linarith
import Mathlib.Tactic.Positivity
import Mathlib.Tactic.NormNum
import Mathlib.Tactic.FieldSimp
import Mathlib.Tactic.Ring
/-!
Error bounds for the computations of `Verif.Model.FloatBins`.
-/
namespace Scipp.FloatBins
open Scipp Numeric Spec Props

/-- Bounds of a rounded non-negative number. -/
theorem round_bounds {x : ℚ} (hx : 0 ≤ x) :
    x * (1 - 1 / 2 ^ 53) ≤ roundDouble x ∧ roundDouble x ≤ x * (1 + 1 / 2 ^ 53) := by
  have h := abs_le.1 (roundDouble_err x)
  rw [abs_of_nonneg hx] at h
  constructor <;> linarith [h.1, h.2]

theorem round_nat {n : Nat} (h : n < 2 ^ 53) : roundDouble (n : ℚ) = n := by
  have := roundDouble_int (n := (n : Int)) (by rw [abs_of_nonneg (by positivity)]; exact_mod_cast h)
  simpa using this

/-- Error of the position computed by `get_bin`. -/
theorem position_close {x d n : ℚ} (hx : 0 ≤ x) (hd : 0 < d) (hn : 0 ≤ n) :
    x * n / d * (1 - 5 / 2 ^ 53) ≤ roundDouble (roundDouble x * roundDouble (n / roundDouble d)) ∧
    roundDouble (roundDouble x * roundDouble (n / roundDouble d)) ≤ x * n / d * (1 + 5 / 2 ^ 53) := by
  obtain ⟨x1, x2⟩ := round_bounds hx
  obtain ⟨d1, d2⟩ := round_bounds hd.le
  have hD : 0 < roundDouble d := lt_of_lt_of_le (mul_pos hd (by norm_num)) d1
  have hq : 0 ≤ n / roundDouble d := div_nonneg hn hD.le
  obtain ⟨s1, s2⟩ := round_bounds hq
  have hX : 0 ≤ roundDouble x := roundDouble_nonneg hx
  have hS : 0 ≤ roundDouble (n / roundDouble d) := roundDouble_nonneg hq
  obtain ⟨r1, r2⟩ := round_bounds (mul_nonneg hX hS)
  -- the quotient
  have q1 : n / d * (1 - 1 / 2 ^ 53) ≤ n / roundDouble d := by
    rw [div_mul_eq_mul_div, div_le_div_iff₀ hd hD]
    have := mul_le_mul_of_nonneg_left d2 (mul_nonneg hn (by norm_num : (0 : ℚ) ≤ 1 - 1 / 2 ^ 53))
    have h2 : 0 ≤ n * d := mul_nonneg hn hd.le
    have : n * (1 - 1 / 2 ^ 53) * (d * (1 + 1 / 2 ^ 53)) ≤ n * d := by
      have e : n * (1 - 1 / 2 ^ 53) * (d * (1 + 1 / 2 ^ 53)) = n * d * (1 - 1 / 2 ^ 106) := by ring
      rw [e]; nlinarith
    linarith
  have q2 : n / roundDouble d ≤ n / d * (1 + 1001 / 1000 / 2 ^ 53) := by
    rw [div_mul_eq_mul_div, div_le_div_iff₀ hD hd]
    have := mul_le_mul_of_nonneg_left d1 (mul_nonneg hn (by norm_num : (0 : ℚ) ≤ 1 + 1001 / 1000 / 2 ^ 53))
    have h2 : 0 ≤ n * d := mul_nonneg hn hd.le
    have : n * d ≤ n * (1 + 1001 / 1000 / 2 ^ 53) * (d * (1 - 1 / 2 ^ 53)) := by
      have e : n * (1 + 1001 / 1000 / 2 ^ 53) * (d * (1 - 1 / 2 ^ 53)) = n * d * ((1 + 1001 / 1000 / 2 ^ 53) * (1 - 1 / 2 ^ 53)) := by ring
      rw [e]
      have : (1 : ℚ) ≤ (1 + 1001 / 1000 / 2 ^ 53) * (1 - 1 / 2 ^ 53) := by norm_num
      nlinarith
    linarith
  have hnd : 0 ≤ n / d := div_nonneg hn hd.le
  set q := n / d with hqd
  have S1 : q * (1 - 1 / 2 ^ 53) ^ 2 ≤ roundDouble (n / roundDouble d) := by
    refine le_trans ?_ s1
    have := mul_le_mul_of_nonneg_right q1 (by norm_num : (0 : ℚ) ≤ 1 - 1 / 2 ^ 53)
    linarith [this, show q * (1 - 1 / 2 ^ 53) ^ 2 = q * (1 - 1 / 2 ^ 53) * (1 - 1 / 2 ^ 53) by ring]
  have S2 : roundDouble (n / roundDouble d) ≤ q * ((1 + 1001 / 1000 / 2 ^ 53) * (1 + 1 / 2 ^ 53)) := by
    refine le_trans s2 ?_
    have := mul_le_mul_of_nonneg_right q2 (by norm_num : (0 : ℚ) ≤ 1 + 1 / 2 ^ 53)
    linarith
  have hxq : 0 ≤ x * q := mul_nonneg hx hnd
  have e0 : x * n / d = x * q := by rw [hqd]; ring
  rw [e0]
  constructor
  · refine le_trans ?_ r1
    have h1 : (x * (1 - 1 / 2 ^ 53)) * (q * (1 - 1 / 2 ^ 53) ^ 2) ≤ roundDouble x * roundDouble (n / roundDouble d) :=
      mul_le_mul x1 S1 (mul_nonneg hnd (by norm_num)) hX
    have h2 := mul_le_mul_of_nonneg_right h1 (by norm_num : (0 : ℚ) ≤ 1 - 1 / 2 ^ 53)
    refine le_trans ?_ h2
    have e : x * (1 - 1 / 2 ^ 53) * (q * (1 - 1 / 2 ^ 53) ^ 2) * (1 - 1 / 2 ^ 53) = x * q * ((1 - 1 / 2 ^ 53) ^ 4) := by ring
    rw [e]
    exact mul_le_mul_of_nonneg_left (by norm_num) hxq
  · refine le_trans r2 ?_
    have h1 : roundDouble x * roundDouble (n / roundDouble d) ≤ (x * (1 + 1 / 2 ^ 53)) * (q * ((1 + 1001 / 1000 / 2 ^ 53) * (1 + 1 / 2 ^ 53))) :=
      mul_le_mul x2 S2 hS (mul_nonneg hx (by norm_num))
    have h2 := mul_le_mul_of_nonneg_right h1 (by norm_num : (0 : ℚ) ≤ 1 + 1 / 2 ^ 53)
    refine le_trans h2 ?_
    have e : x * (1 + 1 / 2 ^ 53) * (q * ((1 + 1001 / 1000 / 2 ^ 53) * (1 + 1 / 2 ^ 53))) * (1 + 1 / 2 ^ 53) =
      x * q * ((1 + 1 / 2 ^ 53) ^ 3 * (1 + 1001 / 1000 / 2 ^ 53)) := by ring
    rw [e]
    exact mul_le_mul_of_nonneg_left (by norm_num) hxq

/-- Edges close to even positions: the guess is at most one off. -/
theorem guessOk_of_even {edges : List ℚ} {N : Nat} {a h : ℚ} (hlen : edges.length = N + 1) (hN1 : 1 ≤ N) (hN : N ≤ 2 ^ 49) (hh : 0 < h)
    (ha : edges.headD 0 = a) (hb : edges.getLastD 0 = a + N * h)
    (hdev : ∀ (i : Nat) e, edges[i]? = some e → |e - (a + i * h)| ≤ h / 2) : GuessOk edges (guess edges) := by
  rintro v i ⟨v', lo, hi, e, g1, g2, g3, g4⟩
  cases e
  have hi1 : i + 1 < N + 1 := by
    have := List.getElem?_eq_some_iff.1 g2
    obtain ⟨h1, _⟩ := this
    omega
  have hNq : (0 : ℚ) < N := by exact_mod_cast hN1
  have hav : a ≤ v := by
    rcases Nat.eq_zero_or_pos i with rfl | hpos
    · have : lo = a := by
        cases edges with
        | nil => simp at g1
        | cons x t => simp at g1 ha; rw [← g1, ha]
      rw [← this]; exact g3
    · have h1 := (abs_le.1 (hdev i lo g1)).1
      have h2 : (1 : ℚ) ≤ i := by exact_mod_cast hpos
      nlinarith
  have hd1 := abs_le.1 (hdev i lo g1)
  have hd2 := abs_le.1 (hdev (i + 1) hi g2)
  push_cast at hd2
  have hd : edges.getLastD 0 - edges.headD 0 = N * h := by rw [ha, hb]; ring
  have hlq : (edges.length : ℚ) - 1 = N := by rw [hlen]; push_cast; ring
  have hround : roundDouble (N : ℚ) = N := round_nat (lt_of_le_of_lt hN (by norm_num))
  have hpos : (0 : ℚ) < N * h := mul_pos hNq hh
  obtain ⟨p1, p2⟩ := position_close (sub_nonneg.2 hav) hpos hNq.le
  have et : (v - a) * N / (N * h) = (v - a) / h := by field_simp
  rw [et] at p1 p2
  unfold guess scale
  rw [hd, hlq, hround, ha]
  set r := roundDouble (roundDouble (v - a) * roundDouble (N / roundDouble (N * h))) with hr
  set t := (v - a) / h with ht
  have ht0 : 0 ≤ t := div_nonneg (sub_nonneg.2 hav) hh.le
  have ht1 : (i : ℚ) - 1 / 2 ≤ t := by
    rw [ht, le_div_iff₀ hh]; linarith [hd1.1]
  have ht2 : t < (i : ℚ) + 3 / 2 := by
    rw [ht, div_lt_iff₀ hh]; linarith [hd2.2]
  have hiN : (i : ℚ) + 1 ≤ N := by exact_mod_cast (by omega : i + 1 ≤ N)
  have hN2 : (N : ℚ) ≤ 2 ^ 49 := by exact_mod_cast hN
  have hr0 : 0 ≤ r := le_trans (mul_nonneg ht0 (by norm_num)) p1
  have hlow : (i : ℚ) - 1 < r := by
    have : t * (5 / 2 ^ 53) ≤ 3 / 8 := by
      have : t ≤ 2 ^ 49 + 1 := by linarith
      have h5 := mul_le_mul_of_nonneg_right this (by norm_num : (0 : ℚ) ≤ 5 / 2 ^ 53)
      norm_num at h5 ⊢
      linarith
    linarith
  have hhigh : r < (i : ℚ) + 2 := by
    have : t * (5 / 2 ^ 53) ≤ 3 / 8 := by
      have : t ≤ 2 ^ 49 + 1 := by linarith
      have h5 := mul_le_mul_of_nonneg_right this (by norm_num : (0 : ℚ) ≤ 5 / 2 ^ 53)
      norm_num at h5 ⊢
      linarith
    linarith
  unfold truncate
  rw [tdiv_eq_floor hr0]
  constructor
  · rw [Int.le_floor]; push_cast; exact hlow.le
  · have : ⌊r⌋ < (i : Int) + 2 := by rw [Int.floor_lt]; push_cast; exact hhigh
    omega

/-- Steps of edges add up. -/
theorem steps_add {edges : List ℚ} {h τ : ℚ}
    (hs : ∀ (i : Nat) x y, edges[i]? = some x → edges[i + 1]? = some y → |y - x - h| ≤ τ) :
    ∀ (k i : Nat) (x y : ℚ), edges[i]? = some x → edges[i + k]? = some y → |y - x - k * h| ≤ k * τ := by
  intro k
  induction k with
  | zero =>
    intro i x y hx hy
    rw [Nat.add_zero, hx] at hy
    cases hy
    simp
  | succ k ih =>
    intro i x y hx hy
    obtain ⟨hlt, _⟩ := List.getElem?_eq_some_iff.1 hy
    have hz : edges[i + k]? = some (edges[i + k]'(by omega)) := List.getElem?_eq_getElem (by omega)
    have h1 := abs_le.1 (ih i x _ hx hz)
    have h2 := abs_le.1 (hs (i + k) _ y hz (by rw [← hy]; congr 1))
    push_cast
    rw [abs_le]
    constructor <;> linarith [h1.1, h1.2, h2.1, h2.2]

theorem headD_eq {edges : List ℚ} {x : ℚ} (h : edges[0]? = some x) : edges.headD 0 = x := by
  cases edges with
  | nil => simp at h
  | cons y t => simpa using h

theorem getLastD_eq {edges : List ℚ} {N : Nat} {x : ℚ} (hl : edges.length = N + 1) (h : edges[N]? = some x) :
    edges.getLastD 0 = x := by
  rw [List.getLastD_eq_getLast?, List.getLast?_eq_getElem?, hl, Nat.add_sub_cancel, h]
  rfl

/-- Steps all close to a common width: the edges ascend, and the guess is at most one off. -/
theorem guessOk_of_steps {edges : List ℚ} {M : Nat} {h τ : ℚ} (hlen : edges.length ≤ M + 1) (hM1 : 1 ≤ M) (hM : M ≤ 2 ^ 49) (hh : 0 < h) (hτ : 0 ≤ τ)
    (hsmall : 8 * (M * τ) ≤ h)
    (hs : ∀ (i : Nat) x y, edges[i]? = some x → edges[i + 1]? = some y → |y - x - h| ≤ τ) :
    Ascending edges ∧ GuessOk edges (guess edges) := by
  have hMq : (1 : ℚ) ≤ M := by exact_mod_cast hM1
  have hτh : 8 * τ ≤ h := by nlinarith
  constructor
  · unfold Ascending
    rw [List.pairwise_iff_getElem]
    intro i j hi hj hij
    obtain ⟨k, rfl⟩ : ∃ k, j = i + k := ⟨j - i, by omega⟩
    have h1 := (abs_le.1 (steps_add hs k i _ _ (List.getElem?_eq_getElem hi) (List.getElem?_eq_getElem hj))).1
    have hk : (0 : ℚ) ≤ k := by positivity
    nlinarith
  · rcases hl : edges.length with _ | N
    · rintro v i ⟨v', lo, hi, e, g1, g2, g3, g4⟩
      obtain ⟨h1, _⟩ := List.getElem?_eq_some_iff.1 g2
      omega
    rcases Nat.eq_zero_or_pos N with rfl | hN1
    · rintro v i ⟨v', lo, hi, e, g1, g2, g3, g4⟩
      obtain ⟨h1, _⟩ := List.getElem?_eq_some_iff.1 g2
      omega
    have hNM : N ≤ M := by omega
    have hNMq : (N : ℚ) ≤ M := by exact_mod_cast hNM
    have hNq : (1 : ℚ) ≤ N := by exact_mod_cast hN1
    obtain ⟨a, ha⟩ : ∃ a, edges[0]? = some a := ⟨_, List.getElem?_eq_getElem (by omega)⟩
    obtain ⟨b, hb⟩ : ∃ b, edges[N]? = some b := ⟨_, List.getElem?_eq_getElem (by omega)⟩
    have hab := abs_le.1 (steps_add hs N 0 a b ha (by rw [Nat.zero_add]; exact hb))
    have hNpos : (0 : ℚ) < N := by linarith
    obtain ⟨h', hh'⟩ : ∃ h', b - a = N * h' := ⟨(b - a) / N, by field_simp⟩
    have hd1 : h' - h ≤ τ := by
      have : N * (h' - h) ≤ N * τ := by linarith [hab.2]
      exact le_of_mul_le_mul_left this hNpos
    have hd2 : -τ ≤ h' - h := by
      have : N * (-τ) ≤ N * (h' - h) := by linarith [hab.1]
      exact le_of_mul_le_mul_left this hNpos
    have hNτ : N * τ ≤ M * τ := mul_le_mul_of_nonneg_right hNMq hτ
    refine guessOk_of_even (h := h') hl hN1 (le_trans hNM hM) (by linarith) (headD_eq ha) ((getLastD_eq hl hb).trans (by linarith)) ?_
    intro i e he
    obtain ⟨hilt, _⟩ := List.getElem?_eq_some_iff.1 he
    have hi := abs_le.1 (steps_add hs i 0 a e ha (by rw [Nat.zero_add]; exact he))
    have hiN : (i : ℚ) ≤ N := by exact_mod_cast (by omega : i ≤ N)
    have hi0 : (0 : ℚ) ≤ i := by positivity
    have hiτ : i * τ ≤ N * τ := mul_le_mul_of_nonneg_right hiN hτ
    have hm1 : i * (h' - h) ≤ i * τ := mul_le_mul_of_nonneg_left hd1 hi0
    have hm2 : i * (-τ) ≤ i * (h' - h) := mul_le_mul_of_nonneg_left hd2 hi0
    rw [abs_le]
    constructor <;> linarith [hi.1, hi.2]

/-- The steps of a range accepted by `islinspace`. -/
theorem steps_of_islinspace {edges : List ℚ} {N : Nat} {a b : ℚ} (hlen : edges.length = N + 1) (hN : N < 2 ^ 53) (ha : edges[0]? = some a)
    (hb : edges[N]? = some b) (h : islinspace edges = true) :
    1 ≤ N ∧ a < b ∧ ∀ (i : Nat) x y, edges[i]? = some x → edges[i + 1]? = some y → |(|y - x|) - (b - a) / N| ≤ (|a| + |b|) / 2 ^ 49 := by
  match edges, hlen, ha, hb, h with
  | [], hlen, _, _, _ => simp at hlen
  | [x], _, _, _, h => simp [islinspace] at h
  | x :: y :: rest, hlen, ha, hb, h =>
    have hlast : (x :: y :: rest).getLast? = some b := by
      rw [List.getLast?_eq_getElem?, hlen, Nat.add_sub_cancel]; exact hb
    have hxa : x = a := by simpa using ha
    subst hxa
    have hN1 : 1 ≤ N := by simp at hlen; omega
    simp only [islinspace, hlast] at h
    split at h
    · exact absurd h (by simp)
    rename_i hlt
    have hab : x < b := not_le.1 hlt
    refine ⟨hN1, hab, ?_⟩
    intro i p q hp hq
    rw [Bool.not_eq_true', adjacentFind_false] at h
    have hi := h i p q hp hq
    rw [decide_eq_false_iff_not, not_lt] at hi
    have hlq : ((x :: y :: rest).length : ℚ) - 1 = N := by rw [hlen]; push_cast; ring
    rw [hlq, round_nat hN] at hi
    have hNq : (0 : ℚ) < N := by exact_mod_cast hN1
    have hNq1 : (1 : ℚ) ≤ N := by exact_mod_cast hN1
    set S := |x| + |b| with hS
    have hS0 : 0 ≤ S := by positivity
    have hbaS : b - x ≤ S := by
      have h1 := le_abs_self b
      have h2 := neg_abs_le x
      linarith
    set w := (b - x) / N with hw
    have hw0 : 0 ≤ w := div_nonneg (by linarith) hNq.le
    have hwS : w ≤ S := by
      refine le_trans ?_ hbaS
      rw [hw, div_le_iff₀ hNq]
      nlinarith
    -- the mean step
    obtain ⟨D1, D2⟩ := round_bounds (sub_nonneg.2 hab.le)
    have hD0 : 0 ≤ roundDouble (b - x) := roundDouble_nonneg (sub_nonneg.2 hab.le)
    obtain ⟨E1, E2⟩ := round_bounds (div_nonneg hD0 hNq.le)
    set δ := roundDouble (roundDouble (b - x) / N) with hδ
    have F1 : w * (1 - 1 / 2 ^ 53) ≤ roundDouble (b - x) / N := by
      rw [le_div_iff₀ hNq, hw]
      have : (b - x) / N * (1 - 1 / 2 ^ 53) * N = (b - x) * (1 - 1 / 2 ^ 53) := by field_simp
      rw [this]; exact D1
    have F2 : roundDouble (b - x) / N ≤ w * (1 + 1 / 2 ^ 53) := by
      rw [div_le_iff₀ hNq, hw]
      have : (b - x) / N * (1 + 1 / 2 ^ 53) * N = (b - x) * (1 + 1 / 2 ^ 53) := by field_simp
      rw [this]; exact D2
    have G1 : w * (1 - 3 / 2 ^ 53) ≤ δ := by
      refine le_trans ?_ E1
      refine le_trans ?_ (mul_le_mul_of_nonneg_right F1 (by norm_num))
      rw [mul_assoc]
      exact mul_le_mul_of_nonneg_left (by norm_num) hw0
    have G2 : δ ≤ w * (1 + 3 / 2 ^ 53) := by
      refine le_trans E2 ?_
      refine le_trans (mul_le_mul_of_nonneg_right F2 (by norm_num)) ?_
      rw [mul_assoc]
      exact mul_le_mul_of_nonneg_left (by norm_num) hw0
    -- the tolerance
    have hε : roundDouble (roundDouble (1 / 2 ^ 52 * roundDouble S) * 4) ≤ S * (9 / 2 ^ 53) := by
      have s0 := roundDouble_nonneg hS0
      have s1 := (round_bounds hS0).2
      have t0 : 0 ≤ 1 / 2 ^ 52 * roundDouble S := mul_nonneg (by norm_num) s0
      have t1 := (round_bounds t0).2
      have u0 : 0 ≤ roundDouble (1 / 2 ^ 52 * roundDouble S) * 4 := mul_nonneg (roundDouble_nonneg t0) (by norm_num)
      have u1 := (round_bounds u0).2
      norm_num at s1 t1 u1 ⊢
      linarith
    -- the step
    set d := q - p with hd
    have e1 := roundDouble_err d
    have e2 := roundDouble_err (|roundDouble d| - δ)
    have hY : |(|roundDouble d|) - δ| * (1 - 1 / 2 ^ 53) ≤ S * (9 / 2 ^ 53) := by
      have h1 : |(|roundDouble d|) - δ| ≤ |roundDouble (|roundDouble d| - δ)| + |roundDouble (|roundDouble d| - δ) - (|roundDouble d| - δ)| := by
        have := abs_sub_abs_le_abs_sub (|roundDouble d| - δ) (roundDouble (|roundDouble d| - δ))
        rw [abs_sub_comm (|roundDouble d| - δ) (roundDouble (|roundDouble d| - δ))] at this
        linarith
      linarith
    set Y := |(|roundDouble d|) - δ| with hYd
    have hY0 : 0 ≤ Y := abs_nonneg _
    have hY1 : Y ≤ S * (10 / 2 ^ 53) := by
      norm_num at hY ⊢
      linarith
    have h3 : |(|roundDouble d|) - (|d|)| ≤ |d| / 2 ^ 53 := le_trans (abs_abs_sub_abs_le_abs_sub _ _) e1
    have hY2 := abs_le.1 (le_refl Y)
    have hY3 := abs_le.1 (le_of_eq hYd.symm)
    have h4 := abs_le.1 h3
    have hdd : |d| ≤ 2 * S := by
      have hd0 := abs_nonneg d
      norm_num at h4 hY1 G2 ⊢
      linarith [h4.1, hY3.2]
    rw [abs_le]
    norm_num at h4 hY1 G1 G2 ⊢
    constructor <;> linarith [h4.1, h4.2, hY3.1, hY3.2]

/-- Steps of a range from `a` to `b` which are all, up to their sign, close to the mean step are positive. -/
theorem steps_signed {edges : List ℚ} {N : Nat} {a b τ : ℚ} (hlen : edges.length = N + 1) (hN1 : 1 ≤ N) (ha : edges[0]? = some a)
    (hb : edges[N]? = some b) (hab : a < b) (hτ : 0 ≤ τ) (hsmall : 8 * (N * τ) ≤ (b - a) / N)
    (hs : ∀ (i : Nat) x y, edges[i]? = some x → edges[i + 1]? = some y → |(|y - x|) - (b - a) / N| ≤ τ) :
    ∀ (i : Nat) x y, edges[i]? = some x → edges[i + 1]? = some y → |y - x - (b - a) / N| ≤ τ := by
  have hNq : (0 : ℚ) < N := by exact_mod_cast hN1
  have hNq1 : (1 : ℚ) ≤ N := by exact_mod_cast hN1
  obtain ⟨w, hw⟩ : ∃ w, w = (b - a) / N := ⟨_, rfl⟩
  rw [← hw] at hsmall hs ⊢
  have hbw : b - a = N * w := by rw [hw]; field_simp
  have hw0 : 0 < w := by rw [hw]; exact div_pos (by linarith) hNq
  -- an upper bound on how far the edges get
  have hup : ∀ (k i : Nat) (x y : ℚ), edges[i]? = some x → edges[i + k]? = some y → y - x ≤ k * (w + τ) := by
    intro k
    induction k with
    | zero =>
      intro i x y hx hy
      rw [Nat.add_zero, hx] at hy
      cases hy
      simp
    | succ k ih =>
      intro i x y hx hy
      obtain ⟨hlt, _⟩ := List.getElem?_eq_some_iff.1 hy
      have hz : edges[i + k]? = some (edges[i + k]'(by omega)) := List.getElem?_eq_getElem (by omega)
      have h1 := ih i x _ hx hz
      have h2 := (abs_le.1 (hs (i + k) _ y hz (by rw [← hy]; congr 1))).2
      have h3 := le_abs_self (y - edges[i + k]'(by omega))
      push_cast
      linarith
  intro i x y hx hy
  have h0 := hs i x y hx hy
  rcases le_or_gt 0 (y - x) with hpos | hneg
  · rwa [abs_of_nonneg hpos] at h0
  · exfalso
    rw [abs_of_neg hneg] at h0
    obtain ⟨hlt, _⟩ := List.getElem?_eq_some_iff.1 hy
    obtain ⟨k, hk⟩ : ∃ k, N = i + 1 + k := ⟨N - (i + 1), by omega⟩
    have h1 := hup i 0 a x ha (by rw [Nat.zero_add]; exact hx)
    have h2 := hup k (i + 1) y b hy (by rw [← hk]; exact hb)
    have h3 := (abs_le.1 h0).1
    have hkq : (N : ℚ) = i + 1 + k := by rw [hk]; push_cast; ring
    have hNτ : N * τ = (i + 1 + k) * τ := by rw [hkq]
    have hNw : N * w = (i + 1 + k) * w := by rw [hkq]
    nlinarith

/-- The steps of an accepted range with sufficiently wide bins. -/
theorem accepted_steps {edges : List ℚ} {N : Nat} {a b : ℚ} (hlen : edges.length = N + 1) (ha : edges[0]? = some a)
    (hb : edges[N]? = some b) (h : islinspace edges = true) (hN : N < 2 ^ 53) (hwide : (N : ℚ) ^ 2 * (|a| + |b|) ≤ 2 ^ 46 * (b - a)) :
    1 ≤ N ∧ N ≤ 2 ^ 49 ∧ a < b ∧ 8 * (N * ((|a| + |b|) / 2 ^ 49)) ≤ (b - a) / N ∧
    ∀ (i : Nat) x y, edges[i]? = some x → edges[i + 1]? = some y → |y - x - (b - a) / N| ≤ (|a| + |b|) / 2 ^ 49 := by
  obtain ⟨h1, h2, h3⟩ := steps_of_islinspace hlen hN ha hb h
  have hNq : (0 : ℚ) < N := by exact_mod_cast h1
  have hNq1 : (1 : ℚ) ≤ N := by exact_mod_cast h1
  have hbaS : b - a ≤ |a| + |b| := by
    have h1 := le_abs_self b
    have h2 := neg_abs_le a
    linarith
  have hsmall : 8 * (N * ((|a| + |b|) / 2 ^ 49)) ≤ (b - a) / N := by
    rw [le_div_iff₀ hNq]
    have e : 8 * (N * ((|a| + |b|) / 2 ^ 49)) * N = (N : ℚ) ^ 2 * (|a| + |b|) / 2 ^ 46 := by ring
    rw [e, div_le_iff₀ (by norm_num)]
    linarith
  have hN49 : N ≤ 2 ^ 49 := by
    by_contra hc
    have hcq : (2 : ℚ) ^ 49 < N := by exact_mod_cast not_le.1 hc
    have hS : 0 < |a| + |b| := lt_of_lt_of_le (by linarith) hbaS
    have : (2 : ℚ) ^ 49 * (|a| + |b|) ≤ (N : ℚ) ^ 2 * (|a| + |b|) := by
      apply mul_le_mul_of_nonneg_right _ hS.le
      nlinarith
    linarith
  exact ⟨h1, hN49, h2, hsmall, steps_signed hlen h1 ha hb h2 (by positivity) hsmall h3⟩

/-- The product in `linspace`, compared with `i` steps of width `R / N`. -/
theorem product_close {N i : Nat} {R : ℚ} (hR : 0 ≤ R) (hN1 : 1 ≤ N) :
    (i : ℚ) * (R / N) * (1 - 201 / 100 / 2 ^ 53) ≤ roundDouble (roundDouble ((i : ℚ) / N) * R) ∧
    roundDouble (roundDouble ((i : ℚ) / N) * R) ≤ (i : ℚ) * (R / N) * (1 + 201 / 100 / 2 ^ 53) := by
  have hNq : (0 : ℚ) < N := by exact_mod_cast hN1
  have hf : (0 : ℚ) ≤ (i : ℚ) / N := by positivity
  obtain ⟨f1, f2⟩ := round_bounds hf
  obtain ⟨p1, p2⟩ := round_bounds (mul_nonneg (roundDouble_nonneg hf) hR)
  have e : (i : ℚ) * (R / N) = (i : ℚ) / N * R := by ring
  rw [e]
  have g0 : 0 ≤ (i : ℚ) / N * R := mul_nonneg hf hR
  constructor
  · refine le_trans ?_ p1
    have h1 := mul_le_mul_of_nonneg_right (mul_le_mul_of_nonneg_right f1 hR) (by norm_num : (0 : ℚ) ≤ 1 - 1 / 2 ^ 53)
    refine le_trans ?_ h1
    have e2 : (i : ℚ) / N * (1 - 1 / 2 ^ 53) * R * (1 - 1 / 2 ^ 53) = (i : ℚ) / N * R * ((1 - 1 / 2 ^ 53) ^ 2) := by ring
    rw [e2]
    exact mul_le_mul_of_nonneg_left (by norm_num) g0
  · refine le_trans p2 ?_
    have h1 := mul_le_mul_of_nonneg_right (mul_le_mul_of_nonneg_right f2 hR) (by norm_num : (0 : ℚ) ≤ 1 + 1 / 2 ^ 53)
    refine le_trans h1 ?_
    have e2 : (i : ℚ) / N * (1 + 1 / 2 ^ 53) * R * (1 + 1 / 2 ^ 53) = (i : ℚ) / N * R * ((1 + 1 / 2 ^ 53) ^ 2) := by ring
    rw [e2]
    exact mul_le_mul_of_nonneg_left (by norm_num) g0

theorem linspaceElem_eq {a b : ℚ} {N i : Nat} (hN : N < 2 ^ 53) (hi : i ≤ N) :
    linspaceElem a b (N + 1) i = roundDouble (a + roundDouble (roundDouble ((i : ℚ) / N) * roundDouble (b - a))) := by
  unfold linspaceElem
  have : (((N + 1 : Nat) : ℚ) - 1) = N := by push_cast; ring
  rw [this, round_nat hN, round_nat (lt_of_le_of_lt hi hN)]

theorem linspace_get {a b : ℚ} {N i : Nat} {edges : List ℚ} (h : linspace a b (N + 1) = .ok edges) :
    edges.length = N + 1 ∧ (i < N → edges[i]? = some (linspaceElem a b (N + 1) i)) ∧ edges[N]? = some b := by
  unfold linspace at h
  rw [if_neg (by omega)] at h
  injection h with h
  subst h
  refine ⟨by simp, ?_, ?_⟩
  · intro hi
    rw [List.getElem?_append_left (by simpa using hi)]
    simp [hi]
  · rw [List.getElem?_append_right (by simp)]
    simp

/-- Elements of `linspace`, compared with steps of width `R / N` where `R` is the rounded length of the range. -/
theorem linspace_close {a b : ℚ} {N : Nat} {edges : List ℚ} (h : linspace a b (N + 1) = .ok edges) (hN1 : 1 ≤ N) (hN : N < 2 ^ 53)
    (hda : roundDouble a = a) (hab : a ≤ b) (i : Nat) (e : ℚ) (he : edges[i]? = some e) :
    |e - (a + i * (roundDouble (b - a) / N))| ≤ 303 / 100 / 2 ^ 53 * (|a| + |b|) ∧
    (i = 0 → e = a) ∧ (i = N → |e - (a + i * (roundDouble (b - a) / N))| ≤ 1 / 2 ^ 53 * (|a| + |b|)) := by
  obtain ⟨hl, hg, hlast⟩ := linspace_get (i := i) h
  have hNq : (0 : ℚ) < N := by exact_mod_cast hN1
  have hba0 : 0 ≤ b - a := sub_nonneg.2 hab
  have hbaS : b - a ≤ |a| + |b| := by
    have h1 := le_abs_self b
    have h2 := neg_abs_le a
    linarith
  obtain ⟨R1, R2⟩ := round_bounds hba0
  set R := roundDouble (b - a) with hR
  have hR0 : 0 ≤ R := roundDouble_nonneg hba0
  obtain ⟨hilt, _⟩ := List.getElem?_eq_some_iff.1 he
  have hfin : i = N → |e - (a + i * (R / N))| ≤ 1 / 2 ^ 53 * (|a| + |b|) := by
    rintro rfl
    rw [hlast] at he
    cases he
    have e1 : b - (a + (i : ℚ) * (R / i)) = b - a - R := by field_simp; ring
    rw [e1, abs_le]
    constructor <;> linarith
  have hzero : i = 0 → e = a := by
    rintro rfl
    rw [hg (by omega), linspaceElem_eq hN (by omega)] at he
    injection he with he
    rw [← he]
    simp [roundDouble_zero, hda]
  refine ⟨?_, hzero, hfin⟩
  by_cases hiN : i = N
  · have := hfin hiN
    have hS0 : 0 ≤ |a| + |b| := by positivity
    refine le_trans this (mul_le_mul_of_nonneg_right (by norm_num) hS0)
  · have hlt : i < N := by omega
    rw [hg hlt, linspaceElem_eq hN hlt.le] at he
    injection he with he
    rw [← he]
    obtain ⟨p1, p2⟩ := product_close (i := i) hR0 hN1
    rw [← hR]
    set p := roundDouble (roundDouble ((i : ℚ) / N) * R) with hp
    have hiq : (i : ℚ) ≤ N := by exact_mod_cast hlt.le
    have hig : (i : ℚ) * (R / N) ≤ R := by
      have : (i : ℚ) * (R / N) = (i : ℚ) / N * R := by ring
      rw [this]
      have h1 : (i : ℚ) / N ≤ 1 := by rw [div_le_one hNq]; exact hiq
      nlinarith
    have hig0 : 0 ≤ (i : ℚ) * (R / N) := by positivity
    set g := (i : ℚ) * (R / N) with hg'
    have hp0 : 0 ≤ p := le_trans (mul_nonneg hig0 (by norm_num)) p1
    have hv := roundDouble_err (a + p)
    have hpb : p ≤ (b - a) * (1 + 4 / 2 ^ 53) := by
      norm_num at p2 R2 ⊢
      linarith
    have habs : |a + p| ≤ (|a| + |b|) * (1 + 4 / 2 ^ 53) := by
      have h1 := le_abs_self b
      have h2 := neg_abs_le a
      have h3 := le_abs_self a
      have h4 := neg_abs_le b
      have h5 := abs_nonneg a
      have h6 := abs_nonneg b
      rw [abs_le]
      norm_num at hpb ⊢
      constructor <;> linarith
    have hv' := abs_le.1 hv
    rw [abs_le]
    norm_num at p1 p2 hv' habs R2 ⊢
    constructor <;> linarith [hv'.1, hv'.2]

/-- `linspace` is sorted. -/
theorem linspace_sorted {a b : ℚ} {N : Nat} {edges : List ℚ} (h : linspace a b (N + 1) = .ok edges) (hN : N ≤ 2 ^ 50)
    (hdb : roundDouble b = b) (hab : a ≤ b) : Ascending edges := by
  have hN53 : N < 2 ^ 53 := lt_of_le_of_lt hN (by norm_num)
  have hba0 : 0 ≤ b - a := sub_nonneg.2 hab
  have hR0 := roundDouble_nonneg hba0
  have hlow : ∀ i j : Nat, i ≤ j → j < N → linspaceElem a b (N + 1) i ≤ linspaceElem a b (N + 1) j := by
    intro i j hij hj
    rw [linspaceElem_eq hN53 (by omega), linspaceElem_eq hN53 (by omega)]
    have hNq : (0 : ℚ) < N := by exact_mod_cast (by omega : 0 < N)
    have h1 : (i : ℚ) / N ≤ (j : ℚ) / N := div_le_div_of_nonneg_right (by exact_mod_cast hij) hNq.le
    refine roundDouble_mono ?_
    have h2 := roundDouble_mono (mul_le_mul_of_nonneg_right (roundDouble_mono h1) hR0)
    linarith
  have hhigh : ∀ i : Nat, i < N → linspaceElem a b (N + 1) i ≤ b := by
    intro i hi
    have hN1 : 1 ≤ N := by omega
    have hNq : (0 : ℚ) < N := by exact_mod_cast hN1
    rw [linspaceElem_eq hN53 hi.le, ← hdb]
    refine roundDouble_mono ?_
    rw [hdb]
    have hp := (product_close (i := i) hR0 hN1).2
    have hR2 := (round_bounds hba0).2
    have hNq2 : (N : ℚ) ≤ 2 ^ 50 := by exact_mod_cast hN
    have hi1 : (i : ℚ) / N ≤ 1 - 1 / 2 ^ 50 := by
      rw [div_le_iff₀ hNq]
      have : (i : ℚ) + 1 ≤ N := by exact_mod_cast hi
      have h2 : (N : ℚ) / 2 ^ 50 ≤ 1 := by rw [div_le_one (by norm_num)]; exact hNq2
      linarith
    have e : (i : ℚ) * (roundDouble (b - a) / N) = (i : ℚ) / N * roundDouble (b - a) := by ring
    rw [e] at hp
    have h3 : (i : ℚ) / N * roundDouble (b - a) ≤ (1 - 1 / 2 ^ 50) * ((b - a) * (1 + 1 / 2 ^ 53)) :=
      mul_le_mul hi1 hR2 hR0 (by norm_num)
    have h4 := mul_le_mul_of_nonneg_right h3 (by norm_num : (0 : ℚ) ≤ 1 + 201 / 100 / 2 ^ 53)
    have h5 : (1 - 1 / 2 ^ 50) * ((b - a) * (1 + 1 / 2 ^ 53)) * (1 + 201 / 100 / 2 ^ 53) ≤ b - a := by
      have e2 : (1 - 1 / 2 ^ 50) * ((b - a) * (1 + 1 / 2 ^ 53)) * (1 + 201 / 100 / 2 ^ 53) =
        (b - a) * ((1 - 1 / 2 ^ 50) * (1 + 1 / 2 ^ 53) * (1 + 201 / 100 / 2 ^ 53)) := by ring
      rw [e2]
      have : ((1 - 1 / 2 ^ 50) * (1 + 1 / 2 ^ 53) * (1 + 201 / 100 / 2 ^ 53) : ℚ) ≤ 1 := by norm_num
      nlinarith
    linarith
  unfold Ascending
  rw [List.pairwise_iff_getElem]
  intro i j hi hj hij
  obtain ⟨hl, -, hlast⟩ := linspace_get (i := 0) h
  have gi := (linspace_get (i := i) h).2.1 (by omega)
  rw [List.getElem?_eq_getElem hi] at gi
  injection gi with gi
  rw [gi]
  by_cases hjN : j = N
  · subst hjN
    rw [List.getElem?_eq_getElem hj] at hlast
    injection hlast with hlast
    rw [hlast]
    exact hhigh i (by omega)
  · have gj := (linspace_get (i := j) h).2.1 (by omega)
    rw [List.getElem?_eq_getElem hj] at gj
    injection gj with gj
    rw [gj]
    exact hlow i j (by omega) (by omega)

/-- `islinspace` accepts the result of `linspace`. -/
theorem linspace_accepted {a b : ℚ} {N : Nat} {edges : List ℚ} (h : linspace a b (N + 1) = .ok edges) (hN1 : 1 ≤ N) (hN : N < 2 ^ 53)
    (hda : roundDouble a = a) (hab : a < b) : islinspace edges = true := by
  obtain ⟨hl, -, hlast⟩ := linspace_get (i := 0) h
  have hclose := linspace_close h hN1 hN hda hab.le
  have hfirst : edges[0]? = some a := by
    have h0 : edges[0]? = some (edges[0]'(by omega)) := List.getElem?_eq_getElem (by omega)
    rw [h0, (hclose 0 _ h0).2.1 rfl]
  match edges, hl, hclose, hfirst, hlast with
  | [], hl, _, _, _ => simp at hl
  | [_], hl, _, _, _ => simp at hl; omega
  | x :: y :: rest, hl, hclose, hfirst, hlast =>
    have hlast' : (x :: y :: rest).getLast? = some b := by
      rw [List.getLast?_eq_getElem?, hl, Nat.add_sub_cancel]; exact hlast
    have hxa : x = a := by simpa using hfirst
    subst hxa
    simp only [islinspace, hlast']
    rw [if_neg (not_le.2 hab), Bool.not_eq_true', adjacentFind_false]
    intro i p q hp hq
    rw [decide_eq_false_iff_not, not_lt]
    have hlq : ((x :: y :: rest).length : ℚ) - 1 = N := by rw [hl]; push_cast; ring
    rw [hlq, round_nat hN]
    have hNq : (0 : ℚ) < N := by exact_mod_cast hN1
    have hNq1 : (1 : ℚ) ≤ N := by exact_mod_cast hN1
    obtain ⟨hilt, _⟩ := List.getElem?_eq_some_iff.1 hq
    have c1 := hclose i p hp
    have c2 := hclose (i + 1) q hq
    have hba0 : 0 ≤ b - x := sub_nonneg.2 hab.le
    have hbaS : b - x ≤ |x| + |b| := by
      have h1 := le_abs_self b
      have h2 := neg_abs_le x
      linarith
    obtain ⟨R1, R2⟩ := round_bounds hba0
    set R := roundDouble (b - x) with hR
    have hR0 : 0 ≤ R := roundDouble_nonneg hba0
    set S := |x| + |b| with hS
    have hS0 : 0 ≤ S := by positivity
    have hRS : R ≤ S * (1 + 1 / 2 ^ 53) := le_trans R2 (mul_le_mul_of_nonneg_right hbaS (by norm_num))
    set g := R / N with hg
    have hg0 : 0 ≤ g := by positivity
    have hgN : g * N = R := by rw [hg]; field_simp
    -- the tolerance
    have hε : S * (79 / 10 / 2 ^ 53) ≤ roundDouble (roundDouble (1 / 2 ^ 52 * roundDouble S) * 4) := by
      have s0 := roundDouble_nonneg hS0
      have s1 := (round_bounds hS0).1
      have t0 : 0 ≤ 1 / 2 ^ 52 * roundDouble S := mul_nonneg (by norm_num) s0
      have t1 := (round_bounds t0).1
      have u0 : 0 ≤ roundDouble (1 / 2 ^ 52 * roundDouble S) * 4 := mul_nonneg (roundDouble_nonneg t0) (by norm_num)
      have u1 := (round_bounds u0).1
      norm_num at s1 t1 u1 ⊢
      linarith
    refine le_trans ?_ hε
    -- the mean step
    have hδ := roundDouble_err g
    rw [abs_of_nonneg hg0] at hδ
    have hδ0 : 0 ≤ roundDouble g := roundDouble_nonneg hg0
    set δ := roundDouble g with hδd
    -- the step and its deviation
    set d := q - p with hd
    have hstep : ∃ c1 c2 : ℚ, |d - g| ≤ c1 * S / 2 ^ 53 ∧ g ≤ c2 * S ∧ c1 + 2 * c2 ≤ 68 / 10 ∧ 0 ≤ c1 ∧ c1 ≤ 7 := by
      have hdg : d - g = (q - (x + (i + 1 : Nat) * g)) - (p - (x + i * g)) := by rw [hd]; push_cast; ring
      have htri : |d - g| ≤ |q - (x + (i + 1 : Nat) * g)| + |p - (x + i * g)| := by rw [hdg]; exact abs_sub _ _
      by_cases h0 : i = 0
      · have hz : |p - (x + i * g)| = 0 := by rw [c1.2.1 h0, h0]; simp
        refine ⟨303 / 100, 101 / 100, ?_, ?_, by norm_num, by norm_num, by norm_num⟩
        · rw [hz] at htri
          have := c2.1
          norm_num at this htri ⊢
          linarith
        · norm_num at hRS ⊢
          nlinarith
      · by_cases hN' : i + 1 = N
        · have hz := c2.2.2 hN'
          refine ⟨404 / 100, 101 / 100, ?_, ?_, by norm_num, by norm_num, by norm_num⟩
          · have := c1.1
            norm_num at this hz htri ⊢
            linarith
          · norm_num at hRS ⊢
            nlinarith
        · have hN3 : 3 ≤ N := by rw [hl] at hilt; omega
          have hN3q : (3 : ℚ) ≤ N := by exact_mod_cast hN3
          refine ⟨607 / 100, 35 / 100, ?_, ?_, by norm_num, by norm_num, by norm_num⟩
          · have h1 := c1.1
            have h2 := c2.1
            norm_num at h1 h2 htri ⊢
            linarith
          · norm_num at hRS ⊢
            nlinarith
    obtain ⟨k1, k2, hk1, hk2, hk3, hk4, hk5⟩ := hstep
    have hdr := roundDouble_err d
    have hdabs : |d| ≤ g + k1 * S / 2 ^ 53 := by
      have h1 := abs_le.1 hk1
      rw [abs_le]
      have : 0 ≤ k1 * S := mul_nonneg hk4 hS0
      constructor <;> linarith [h1.1, h1.2]
    have hrd : |roundDouble d - δ| ≤ (k1 + 2 * k2 + 1 / 10) * S / 2 ^ 53 := by
      have h1 := abs_le.1 hk1
      have h2 := abs_le.1 hdr
      have h3 := abs_le.1 hδ
      have hkS : k1 * S ≤ 7 * S := mul_le_mul_of_nonneg_right hk5 hS0
      rw [abs_le]
      norm_num at h1 h2 h3 hdabs ⊢
      constructor <;> linarith [h1.1, h1.2, h2.1, h2.2, h3.1, h3.2]
    have hY : |(|roundDouble d|) - δ| ≤ 69 / 10 * S / 2 ^ 53 := by
      have h1 := abs_abs_sub_abs_le_abs_sub (roundDouble d) δ
      rw [abs_of_nonneg hδ0] at h1
      refine le_trans (le_trans h1 hrd) ?_
      have : (k1 + 2 * k2 + 1 / 10) * S ≤ 69 / 10 * S := mul_le_mul_of_nonneg_right (by linarith) hS0
      exact div_le_div_of_nonneg_right this (by norm_num)
    have hfin := roundDouble_err (|roundDouble d| - δ)
    have h1 : |roundDouble (|roundDouble d| - δ)| ≤ |(|roundDouble d|) - δ| + |roundDouble (|roundDouble d| - δ) - (|roundDouble d| - δ)| := by
      have := abs_sub_abs_le_abs_sub (roundDouble (|roundDouble d| - δ)) (|roundDouble d| - δ)
      linarith
    norm_num at hY hfin h1 ⊢
    linarith

end Scipp.FloatBins
