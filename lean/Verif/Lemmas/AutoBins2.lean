import Verif.Lemmas.AutoBins
import Mathlib.Tactic.FieldSimp
import Mathlib.Tactic.Ring

namespace Scipp.AutoBins
open Numeric

theorem values_sub {V : Type} [LinearOrder V] (x : Source V) : ∀ v ∈ x.values, v ∈ x.numbers := by
  have ha : ∀ (coord : Option (List V × Bool)) (e : Option (List V)), ∀ v ∈ arrayValues coord e,
      v ∈ (coord.map (·.1)).getD [] ∨ v ∈ e.getD [] := by
    intro coord e v hv
    cases e with
    | some e => right; exact hv
    | none =>
      cases coord with
      | some c => left; exact hv
      | none => simp [arrayValues] at hv
  intro v hv
  cases x with
  | var values => exact hv
  | array coord events => exact List.mem_append.2 (ha coord events v hv)
  | dataset coord items =>
    obtain ⟨e, he, hv⟩ := List.mem_flatMap.1 hv
    rcases ha coord e v hv with h | h
    · exact List.mem_append.2 (Or.inl h)
    · exact List.mem_append.2 (Or.inr (List.mem_flatMap.2 ⟨e, he, h⟩))

theorem nextUp_gt (x : ℚ) : x < nextUp x := by
  simp only [nextUp]
  split_ifs with h h2
  · rw [h]; exact zpow_pos (by norm_num) _
  · have : (0 : ℚ) < 2 ^ (Int.log 2 |x| - 53) := zpow_pos (by norm_num) _
    linarith
  · have : (0 : ℚ) < 2 ^ (Int.log 2 |x| - 52) := zpow_pos (by norm_num) _
    linarith

theorem round_int {m : Int} (h : |m| ≤ 2 ^ 53) : roundDouble (m : ℚ) = m := by
  rcases lt_or_eq_of_le h with h | h
  · simpa using roundDouble_exact m 0 h
  · have h1 := roundDouble_exact 1 53 (by decide)
    rcases abs_eq (by positivity : (0 : Int) ≤ 2 ^ 53) |>.1 h with h | h
    · subst h
      have : (((2 ^ 53 : Int) : Int) : ℚ) = ((1 : Int) : ℚ) * 2 ^ (53 : Int) := by norm_num
      rw [this]; exact h1
    · subst h
      have : (((-2 ^ 53 : Int) : Int) : ℚ) = -(((1 : Int) : ℚ) * 2 ^ (53 : Int)) := by norm_num
      rw [this, roundDouble_neg, h1]

theorem le_round_succ {x : ℚ} (hx : roundDouble x = x) : x ≤ roundDouble (x + 1) := by
  have := roundDouble_mono (show x ≤ x + 1 by linarith)
  rwa [hx] at this

theorem lt_round_succ {x : ℚ} (h : |x| < 2 ^ 53) : x < roundDouble (x + 1) := by
  obtain ⟨h1, h2⟩ := abs_lt.1 h
  have h3 : ((⌊x⌋ + 1 : Int) : ℚ) ≤ x + 1 := by push_cast; linarith [Int.floor_le x]
  have h4 := roundDouble_mono h3
  have h5 : |⌊x⌋ + 1| ≤ 2 ^ 53 := by
    have h6 : -2 ^ 53 ≤ ⌊x⌋ := Int.le_floor.2 (by push_cast; linarith)
    have h7 : ⌊x⌋ < 2 ^ 53 := Int.floor_lt.2 (by push_cast; linarith)
    rw [abs_le]
    constructor <;> linarith
  rw [round_int h5] at h4
  have := Int.lt_floor_add_one x
  push_cast at h4
  linarith

theorem le_upperFloat {x : ℚ} (hx : roundDouble x = x) : x ≤ upperFloat x := by
  have h := le_round_succ hx
  unfold upperFloat nextAfter
  split_ifs with h1 h2
  · exact h
  · exact le_of_lt (nextUp_gt x)
  · exact absurd (lt_of_le_of_ne h (Ne.symm h1)) h2

theorem lt_upperFloat {x : ℚ} (h : |x| < 2 ^ 53) : x < upperFloat x := by
  have h1 := lt_round_succ h
  unfold upperFloat nextAfter
  rw [if_neg (ne_of_gt h1), if_pos h1]
  exact nextUp_gt x

theorem npLinspace_head (a b : ℚ) (n : Nat) : (npLinspace a b (n + 1)).head? = some a := by
  simp only [npLinspace, List.head?_map, List.head?_range]
  simp

theorem npLinspace_last (a b : ℚ) {n : Nat} (hn : 1 ≤ n) : (npLinspace a b (n + 1)).getLast? = some b := by
  simp only [npLinspace, List.getLast?_map, List.getLast?_range]
  have : n ≠ 0 := by omega
  simp [this]

theorem npLinspace_length (a b : ℚ) (n : Nat) : (npLinspace a b n).length = n := by simp [npLinspace]

theorem truncate_int (m : Int) : FloatBins.truncate (m : ℚ) = m := by simp [FloatBins.truncate]

theorem roundHalfEven_int (m : Int) : roundHalfEven (m : ℚ) = m := by simp [roundHalfEven]

/-- Edges with an integral start and stop contain what is between them. -/
theorem inBin_map {f : ℚ → Int} (hf : ∀ m : Int, f m = m) {start stop x : Int} {n : Nat} (hn : 1 ≤ n) (h1 : |start| ≤ 2 ^ 53)
    (h2 : |stop| ≤ 2 ^ 53) (h3 : start ≤ x) (h4 : x < stop) :
    InBin ((npLinspace (roundDouble start) (roundDouble stop) (n + 1)).map f) x := by
  refine inBin_of_ends (a := start) (b := stop) ?_ ?_ h3 h4
  · rw [List.head?_map, npLinspace_head, round_int h1]; simp [hf]
  · rw [List.getLast?_map, npLinspace_last _ _ hn, round_int h2]; simp [hf]

theorem npArange_length {start stop step : Int} (hs : 0 < step) (h : start < stop) :
    ∃ n : Nat, (⌈((stop + step - start : Int) : ℚ) / step⌉).toNat = n + 2 ∧ stop ≤ start + ((n + 1 : Nat) : Int) * step := by
  have hs' : (0 : ℚ) < step := by exact_mod_cast hs
  set q := ((stop + step - start : Int) : ℚ) / step with hq
  have h1 : q * step = ((stop + step - start : Int) : ℚ) := by rw [hq]; field_simp
  have h2 : 1 < q := by
    rw [hq, lt_div_iff₀ hs']
    push_cast
    have : (start : ℚ) < stop := by exact_mod_cast h
    linarith
  have h3 : (1 : Int) < ⌈q⌉ := by rw [Int.lt_ceil]; exact_mod_cast h2
  have h4 : q ≤ ⌈q⌉ := Int.le_ceil q
  refine ⟨(⌈q⌉ - 2).toNat, by omega, ?_⟩
  have h5 : (((⌈q⌉ - 2).toNat + 1 : Nat) : Int) = ⌈q⌉ - 1 := by omega
  rw [h5]
  have h6 : ((stop + step - start : Int) : ℚ) ≤ ((⌈q⌉ * step : Int) : ℚ) := by
    rw [← h1]; push_cast; exact mul_le_mul_of_nonneg_right h4 (le_of_lt hs')
  have h7 : stop + step - start ≤ ⌈q⌉ * step := by exact_mod_cast h6
  linarith [h7, sub_mul ⌈q⌉ 1 step, one_mul step]

/-! ## Groups -/

theorem mem_insertUnique {x y : Int} {l : List Int} : y ∈ insertUnique x l ↔ y = x ∨ y ∈ l := by
  induction l with
  | nil => simp [insertUnique]
  | cons z zs ih =>
    simp only [insertUnique]
    split_ifs with h1 h2
    · simp
    · subst h2; simp
    · simp only [List.mem_cons, ih]; tauto

theorem sorted_insertUnique {x : Int} {l : List Int} (h : l.Pairwise (· < ·)) : (insertUnique x l).Pairwise (· < ·) := by
  induction l with
  | nil => simp [insertUnique]
  | cons z zs ih =>
    obtain ⟨hz, hzs⟩ := List.pairwise_cons.1 h
    simp only [insertUnique]
    split_ifs with h1 h2
    · refine List.pairwise_cons.2 ⟨fun y hy => ?_, h⟩
      rcases List.mem_cons.1 hy with rfl | hy
      · exact h1
      · exact Int.lt_trans h1 (hz y hy)
    · exact h
    · refine List.pairwise_cons.2 ⟨fun y hy => ?_, ih hzs⟩
      rcases mem_insertUnique.1 hy with rfl | hy
      · omega
      · exact hz y hy

theorem mem_npUnique {y : Int} {l : List Int} : y ∈ npUnique l ↔ y ∈ l := by
  induction l with
  | nil => simp [npUnique]
  | cons z zs ih =>
    show y ∈ insertUnique z (npUnique zs) ↔ _
    rw [mem_insertUnique, ih]; simp

theorem sorted_npUnique (l : List Int) : (npUnique l).Pairwise (· < ·) := by
  induction l with
  | nil => simp [npUnique]
  | cons z zs ih => exact sorted_insertUnique ih

/-- Different integers between two bounds, as many as there are, are all of them. -/
theorem full_of_length {u : List Int} {lo hi : Int} (hs : u.Pairwise (· < ·)) (hr : ∀ y ∈ u, lo ≤ y ∧ y ≤ hi)
    (hl : (u.length : Int) = hi - lo + 1) (x : Int) (h1 : lo ≤ x) (h2 : x ≤ hi) : x ∈ u := by
  by_contra hx
  have hnd : (x :: u).Nodup := List.nodup_cons.2 ⟨hx, hs.imp (fun h => ne_of_lt h)⟩
  have hsub : x :: u ⊆ (List.range (hi - lo + 1).toNat).map (fun i : Nat => lo + i) := by
    intro y hy
    have hy' : lo ≤ y ∧ y ≤ hi := by
      rcases List.mem_cons.1 hy with rfl | hy
      · exact ⟨h1, h2⟩
      · exact hr y hy
    refine List.mem_map.2 ⟨(y - lo).toNat, List.mem_range.2 (by omega), by omega⟩
  have := (hnd.subperm hsub).length_le
  simp at this
  omega

theorem wrap_eq {bits : Nat} {x k : Int} (hb : 1 ≤ bits) (hx0 : 0 ≤ x) (hx : x + 1 < 2 ^ bits) (hk : 0 ≤ k) :
    k = wrap bits (wrap bits x + 1) → k = x + 1 := by
  obtain ⟨b, rfl⟩ : ∃ b, bits = b + 1 := ⟨bits - 1, by omega⟩
  simp only [wrap, Nat.add_sub_cancel]
  rw [pow_succ] at hx ⊢
  generalize hP : (2 : Int) ^ b = P at *
  have hP0 : 0 < P := by rw [← hP]; positivity
  have e1 : ((x + P) % (P * 2) - P + 1 + P) % (P * 2) = (x + 1 + P) % (P * 2) := by
    have : (x + P) % (P * 2) - P + 1 + P = (x + P) % (P * 2) + 1 := by ring
    rw [this, Int.emod_add_emod]
    congr 1; ring
  rw [e1]
  intro h
  by_cases hlt : x + 1 < P
  · rw [Int.emod_eq_of_lt (by omega) (by omega)] at h
    omega
  · have : (x + 1 + P) % (P * 2) = x + 1 - P := by
      have h3 : x + 1 + P = (x + 1 - P) + P * 2 := by ring
      rw [h3, Int.add_emod_right, Int.emod_eq_of_lt (by omega) (by omega)]
    rw [this] at h
    omega

theorem groupLoop_spec {bits : Nat} (hb : 1 ≤ bits) {rows : List (List Int)} {lo hi : Int} (hlo : lo ≤ hi) (hfull : hi - lo + 1 < 2 ^ bits)
    (hr : ∀ y ∈ rows.flatten, lo ≤ y ∧ y ≤ hi) :
    ∀ (pivots : List Nat) (u : List Int), u.Pairwise (· < ·) → (∀ y ∈ u, y ∈ rows.flatten) →
      (pivots = [] → ∀ y ∈ rows.flatten, y ∈ u) → (∀ p, pivots.getLast? = some p → p = 1) →
      (groupLoop bits rows lo hi pivots u).Pairwise (· < ·) ∧ ∀ y, y ∈ groupLoop bits rows lo hi pivots u ↔ y ∈ rows.flatten := by
  intro pivots
  induction pivots with
  | nil =>
    intro u hs hu hall _
    exact ⟨hs, fun y => ⟨hu y, hall rfl y⟩⟩
  | cons p ps ih =>
    intro u hs hu _ hlast
    rw [groupLoop]
    split_ifs with h
    · have h1 := wrap_eq hb (x := hi - lo) (by omega) hfull (by omega) h
      refine ⟨hs, fun y => ⟨hu y, fun hy => ?_⟩⟩
      obtain ⟨h2, h3⟩ := hr y hy
      exact full_of_length hs (fun z hz => hr z (hu z hz)) h1 y h2 h3
    · refine ih _ (sorted_npUnique _) ?_ ?_ ?_
      · intro y hy
        rw [mem_npUnique] at hy
        obtain ⟨row, h1, h2⟩ := List.mem_flatten.1 hy
        exact List.mem_flatten.2 ⟨row, List.mem_of_mem_take h1, h2⟩
      · intro hps y hy
        subst hps
        have := hlast p rfl
        subst this
        rw [mem_npUnique, Nat.div_one, List.take_length]
        exact hy
      · intro q hq
        exact hlast q (getLast?_cons_of hq)

end Scipp.AutoBins
