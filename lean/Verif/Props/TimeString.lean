/-
C70: the text of a time point stands for that time point.
-/
import Verif.Lemmas.TimeString
import Mathlib.Tactic.FieldSimp
import Mathlib.Tactic.Linarith
import Mathlib.Tactic.NormNum
import Mathlib.Tactic.Positivity
import Mathlib.Algebra.Order.Field.Basic
import Mathlib.Algebra.Order.Ring.Rat

namespace Scipp.Props
open Scipp Scipp.TimeString

theorem numDigits_spec (u : TUnit) (h : 1 < u.den) : 0 < numDigits u ∧ 10 ^ numDigits u = u.den := by
  cases u <;> first | (exact absurd h (by decide)) | decide

theorem den_pos (u : TUnit) : 0 < u.den := by cases u <;> decide

theorem seconds_eq (u : TUnit) (h : u.Printable) : u.seconds = (u.num : ℚ) / u.den := by
  obtain ⟨h1, h2⟩ := h
  cases u <;> first | contradiction | norm_num [TUnit.seconds, TUnit.num, TUnit.den]

theorem toIsoDate_eq (g : Int → Civil) (clock : Nat) (count : Int) (u : TUnit) (h : u.Printable) :
    toIsoDate g clock count u = durationText g clock u count := by
  obtain ⟨h1, h2⟩ := h
  cases u <;> first | contradiction | rfl

theorem num_one (u : TUnit) (h : 1 < u.den) : u.num = 1 := by
  cases u <;> first | (exact absurd h (by decide)) | decide

theorem tdiv_bound (a : Int) (b : Nat) (hb : 0 < b) : (a.tdiv b).natAbs * b ≤ a.natAbs := by
  rw [Int.natAbs_tdiv]
  exact Nat.div_mul_le_self a.natAbs b

theorem durationText_eq (g : Int → Civil) (clock : Nat) (count : Int) (u : TUnit)
    (hclock : 0 < clock) (h64 : count.natAbs < 2 ^ 63)
    (hrange : count.natAbs * u.num * clock < 2 ^ 63 * u.den) :
    durationText g clock u count = .ok (g ((count * u.num).tdiv u.den),
      if 1 < u.den then some (setw (numDigits u) (intText (count.tmod u.den))) else none) := by
  have hd := den_pos u
  have hn : (count * u.num).natAbs = count.natAbs * u.num := by simp [Int.natAbs_mul]
  have f1 : fits64 (count * u.num) = true := by
    have : (count * u.num).natAbs < 2 ^ 63 := by
      rw [hn]
      by_cases h1 : 1 < u.den
      · rw [num_one u h1]; omega
      · have : u.den = 1 := by omega
        rw [this] at hrange
        have := Nat.le_mul_of_pos_right (count.natAbs * u.num) hclock
        omega
    unfold fits64; simp only [decide_eq_true_eq]; omega
  have f2 : fits64 ((count * u.num).tdiv u.den * clock) = true := by
    have hb := tdiv_bound (count * u.num) u.den hd
    rw [hn] at hb
    have : ((count * u.num).tdiv u.den * clock).natAbs < 2 ^ 63 := by
      rw [Int.natAbs_mul, Int.natAbs_natCast]
      have h2 := Nat.mul_le_mul_right clock hb
      have h3 : ((count * u.num).tdiv u.den).natAbs * clock * u.den < 2 ^ 63 * u.den := by
        calc _ = ((count * u.num).tdiv u.den).natAbs * u.den * clock := by ring
          _ ≤ _ := h2
          _ < _ := hrange
      exact Nat.lt_of_mul_lt_mul_right h3
    unfold fits64; simp only [decide_eq_true_eq]; omega
  have f3 : ((count * u.num).tdiv u.den * (clock : Int)).tdiv clock = (count * u.num).tdiv u.den :=
    Int.mul_tdiv_cancel _ (by omega)
  unfold durationText castSeconds toTimeT
  simp only [f1, if_true, bind, Except.bind, f2, f3]

/-- **C70** For every unit of a time point that can be printed (ns, us, ms, s, min, h)
and every time point from 1970 on — or before 1970 if it is a whole number of seconds —
whose distance from 1970 in ticks of the system clock fits 64 bits, the text is an ISO
8601 date and time that stands for exactly this time point, and has three, six or nine
decimal places for ms, us and ns and none otherwise.

Missing, see `C70_wrong_before_1970` and `C70_wrong_far_future`: time points with
fractional seconds before 1970, and time points the system clock cannot represent. -/
theorem C70_iso_partial (gmtime : Int → Civil) (hg : IsGmtime gmtime) (clock : Nat)
    (hclock : 0 < clock) (u : TUnit) (hu : u.Printable) (count : Int)
    (h64 : count.natAbs < 2 ^ 63)
    (hrange : count.natAbs * u.num * clock < 2 ^ 63 * u.den)
    (h1970 : 0 ≤ count ∨ (u.den : Int) ∣ count) :
    ∃ c f, toIsoDate gmtime clock count u = .ok (c, f) ∧ c.Valid ∧
      instant (c, f) = some (count * u.seconds) ∧
      f.map List.length =
        (match u with | .ms => some 3 | .us => some 6 | .ns => some 9 | _ => none) := by
  refine ⟨_, if 1 < u.den then some (setw (numDigits u) (intText (count.tmod u.den))) else none,
    ?_, (hg ((count * u.num).tdiv u.den)).1, ?_, ?_⟩
  · rw [toIsoDate_eq _ _ _ _ hu]
    exact durationText_eq gmtime clock count u hclock h64 hrange
  all_goals
    by_cases h1 : 1 < u.den
    · have hn := num_one u h1
      obtain ⟨hw0, hw⟩ := numDigits_spec u h1
      have hm : 0 ≤ count.tmod u.den := by
        rcases h1970 with h | h
        · exact Int.tmod_nonneg _ h
        · rw [Int.tmod_eq_zero_of_dvd h]
      have hlt : (count.tmod u.den).natAbs < 10 ^ numDigits u := by
        rw [hw, Int.natAbs_tmod]
        exact Nat.mod_lt _ (by simpa using den_pos u)
      obtain ⟨r1, r2⟩ := setw_natText hw0 hlt
      have e : intText (count.tmod u.den) = natText (count.tmod u.den).natAbs := by
        unfold intText; rw [if_neg (by omega)]
      simp only [if_pos h1, e]
      first
      | simp only [instant, r1, r2, Option.map_some, (hg _).2, hn, seconds_eq u hu]
        have hq : ((count.tmod u.den).natAbs : ℚ) = ((count.tmod u.den : Int) : ℚ) := by
          rw [← Int.cast_natCast, Int.natAbs_of_nonneg hm]
        have hw' : (10 : ℚ) ^ numDigits u = u.den := by exact_mod_cast hw
        have hd0 : (u.den : ℚ) ≠ 0 := by have := den_pos u; exact_mod_cast (by omega)
        have hdm : ((count.tdiv u.den : Int) : ℚ) * u.den + ((count.tmod u.den : Int) : ℚ) = count := by
          have := Int.mul_tdiv_add_tmod count u.den
          have h2 : count.tdiv u.den * (u.den : Int) + count.tmod u.den = count := by
            rw [mul_comm]; exact this
          exact_mod_cast h2
        rw [hq, hw']
        simp only [Nat.cast_one, mul_one]
        congr 1
        field_simp
        linarith
      | simp only [Option.map_some, r2]
        cases u <;> first | (exact absurd h1 (by decide)) | rfl
    · have hd : u.den = 1 := by have := den_pos u; omega
      simp only [if_neg h1]
      first
      | simp only [instant, (hg _).2, seconds_eq u hu, hd]
        simp
      | cases u <;> first | rfl | (exact absurd (by decide) h1)

/-- The code's own case: a time in ns, with the clock of libstdc++. -/
example : toIsoDate gmtimeRef 1000000000 1675175405001002003 .ns =
    .ok (⟨2023, 1, 31, 14, 30, 5⟩, some "001002003".toList) := by
  rfl

example : IsGmtime gmtimeRef ∧ (TUnit.ns).Printable ∧
    (1675175405001002003 : Int).natAbs * TUnit.ns.num * 1000000000 < 2 ^ 63 * TUnit.ns.den :=
  ⟨gmtimeRef_spec, by simp [TUnit.Printable], by decide⟩

/-- Leap day, in minutes, and a whole second before 1970. -/
example : toIsoDate gmtimeRef 1000000000 15829919 .min = .ok (⟨2000, 2, 5, 23, 59, 0⟩, none) ∧
    toIsoDate gmtimeRef 1000000000 (15829919 + 24 * 1440 + 1) .min = .ok (⟨2000, 3, 1, 0, 0, 0⟩, none) ∧
    toIsoDate gmtimeRef 1000000000 (-1000) .ms =
      .ok (⟨1969, 12, 31, 23, 59, 59⟩, some ['0', '0', '0']) := by
  refine ⟨rfl, rfl, rfl⟩

/-- **C70** The printed date and time is the one of the calendar: the only existing
date and time whose second contains the time point. -/
theorem C70_date (gmtime : Int → Civil) (hg : IsGmtime gmtime) (clock : Nat)
    (hclock : 0 < clock) (u : TUnit) (hu : u.Printable) (count : Int)
    (h64 : count.natAbs < 2 ^ 63)
    (hrange : count.natAbs * u.num * clock < 2 ^ 63 * u.den)
    (h1970 : 0 ≤ count ∨ (u.den : Int) ∣ count)
    (c : Civil) (hc : c.Valid) (h1 : (c.seconds : ℚ) ≤ count * u.seconds)
    (h2 : count * u.seconds < c.seconds + 1) :
    ∃ f, toIsoDate gmtime clock count u = .ok (c, f) := by
  obtain ⟨c', f, e, hv, hi, -⟩ :=
    C70_iso_partial gmtime hg clock hclock u hu count h64 hrange h1970
  refine ⟨f, ?_⟩
  have hs : c'.seconds = c.seconds := by
    have key : (c'.seconds : ℚ) ≤ count * u.seconds ∧ count * u.seconds < c'.seconds + 1 := by
      cases f with
      | none => simp only [instant, Option.some.injEq] at hi; rw [← hi]; simp
      | some t =>
        simp only [instant, Option.map_eq_some_iff] at hi
        obtain ⟨n, hn, hi⟩ := hi
        have hlt : n < 10 ^ t.length := readFrom_lt t 0 n hn |>.trans_le (by simp)
        have hp : (0 : ℚ) < 10 ^ t.length := by positivity
        have h3 : (0 : ℚ) ≤ (n : ℚ) / 10 ^ t.length := by positivity
        have h4 : (n : ℚ) / 10 ^ t.length < 1 := by
          rw [div_lt_one hp]; exact_mod_cast hlt
        constructor <;> linarith
    have a1 : (c'.seconds : ℚ) < c.seconds + 1 := by linarith [key.1]
    have a2 : (c.seconds : ℚ) < c'.seconds + 1 := by linarith [key.2]
    have b1 : c'.seconds < c.seconds + 1 := by exact_mod_cast a1
    have b2 : c.seconds < c'.seconds + 1 := by exact_mod_cast a2
    omega
  rw [e, seconds_inj hv hc hs]

example : (⟨2024, 2, 29, 12, 0, 1⟩ : Civil).Valid ∧
    (⟨2024, 2, 29, 12, 0, 1⟩ : Civil).seconds = 1709208001 ∧
    toIsoDate gmtimeRef 1000000000 1709208001999 .ms =
      .ok (⟨2024, 2, 29, 12, 0, 1⟩, some ['9', '9', '9']) := by
  refine ⟨⟨⟨29, by decide, by decide⟩, by decide, by decide, by decide, by decide, by decide⟩,
    by decide, rfl⟩

/-- **C70** Different time points of the same unit have different texts. -/
theorem C70_distinct (gmtime : Int → Civil) (hg : IsGmtime gmtime) (clock : Nat)
    (hclock : 0 < clock) (u : TUnit) (hu : u.Printable) (a b : Int)
    (ha64 : a.natAbs < 2 ^ 63) (hb64 : b.natAbs < 2 ^ 63)
    (har : a.natAbs * u.num * clock < 2 ^ 63 * u.den)
    (hbr : b.natAbs * u.num * clock < 2 ^ 63 * u.den)
    (ha : 0 ≤ a ∨ (u.den : Int) ∣ a) (hb : 0 ≤ b ∨ (u.den : Int) ∣ b)
    (h : toIsoDate gmtime clock a u = toIsoDate gmtime clock b u) : a = b := by
  obtain ⟨c, f, e, -, hi, -⟩ := C70_iso_partial gmtime hg clock hclock u hu a ha64 har ha
  obtain ⟨c', f', e', -, hi', -⟩ := C70_iso_partial gmtime hg clock hclock u hu b hb64 hbr hb
  rw [e, e'] at h
  injection h with h
  rw [h, hi'] at hi
  injection hi with hi
  have hs : u.seconds ≠ 0 := by
    obtain ⟨h1, h2⟩ := hu
    cases u <;> first | contradiction | norm_num [TUnit.seconds]
  have := mul_right_cancel₀ hs hi
  exact_mod_cast this.symm

example : toIsoDate gmtimeRef 1000000000 1 .us ≠ toIsoDate gmtimeRef 1000000000 10 .us := by
  intro h
  exact absurd (C70_distinct gmtimeRef gmtimeRef_spec 1000000000 (by decide) .us
    (by simp [TUnit.Printable]) 1 10 (by decide) (by decide) (by decide) (by decide)
    (.inl (by decide)) (.inl (by decide)) h) (by decide)

/-- **C70 fails** before 1970 for every time point with a fraction of a second: the
division rounds towards 1970 and the remainder is negative, so the text has a minus sign
among the decimal places, and the date and time printed are after the time point. -/
theorem C70_wrong_before_1970 (gmtime : Int → Civil) (hg : IsGmtime gmtime) (clock : Nat)
    (hclock : 0 < clock) (u : TUnit) (hu : u.Printable) (count : Int)
    (h64 : count.natAbs < 2 ^ 63)
    (hrange : count.natAbs * u.num * clock < 2 ^ 63 * u.den)
    (hneg : count < 0) (hfrac : ¬ (u.den : Int) ∣ count) :
    ∃ c f, toIsoDate gmtime clock count u = .ok (c, some f) ∧ '-' ∈ f ∧
      instant (c, some f) = none ∧ (count : ℚ) * u.seconds < c.seconds := by
  have h1 : 1 < u.den := by
    by_contra h
    have hd : u.den = 1 := by have := den_pos u; omega
    exact hfrac (by rw [hd]; simp)
  have hm : count.tmod u.den < 0 := by
    have h2 : count.tmod u.den ≠ 0 := fun h => hfrac (Int.dvd_of_tmod_eq_zero h)
    have h3 : count.tmod u.den ≤ 0 := by
      have := Int.tmod_nonneg (u.den : Int) (a := -count) (by omega)
      rw [Int.neg_tmod] at this
      omega
    omega
  have e := durationText_eq gmtime clock count u hclock h64 hrange
  rw [← toIsoDate_eq _ _ _ _ hu, if_pos h1] at e
  have hmem : '-' ∈ setw (numDigits u) (intText (count.tmod u.den)) := by
    unfold setw intText; rw [if_pos hm]; simp
  refine ⟨_, _, e, hmem, ?_, ?_⟩
  · simp only [instant, readFrom_minus _ 0 hmem, Option.map_none]
  · rw [(hg _).2, seconds_eq u hu, num_one u h1]
    have hd0 : (0 : ℚ) < u.den := by have := den_pos u; exact_mod_cast this
    have hdm : (u.den : Int) * count.tdiv u.den + count.tmod u.den = count :=
      Int.mul_tdiv_add_tmod count u.den
    have hlt : count < count.tdiv u.den * (u.den : Int) := by
      rw [mul_comm]; omega
    have hq : (count : ℚ) < (count.tdiv u.den : Int) * (u.den : ℚ) := by exact_mod_cast hlt
    simp only [Nat.cast_one, mul_one, one_div]
    rw [← div_eq_mul_inv, div_lt_iff₀ hd0]
    exact hq

/-- Half a second before 1970 is printed as `1970-01-01T00:00:00.-500`. -/
example : toIsoDate gmtimeRef 1000000000 (-500) .ms =
    .ok (⟨1970, 1, 1, 0, 0, 0⟩, some ['-', '5', '0', '0']) := rfl

/-- In ns the fill characters stand before the sign. -/
example : toIsoDate gmtimeRef 1000000000 (-1000000001) .ns =
    .ok (⟨1969, 12, 31, 23, 59, 59⟩, some "0000000-1".toList) := rfl

/-- **C70 fails** for time points in s, min or h that the system clock's type cannot
represent (with libstdc++, 292 years before or after 1970): the conversion overflows.
The time point is 3000-01-01. -/
theorem C70_wrong_far_future (gmtime : Int → Civil) :
    toIsoDate gmtime 1000000000 32503680000 .s = .error .ub ∧
    (⟨3000, 1, 1, 0, 0, 0⟩ : Civil).seconds = 32503680000 := by
  exact ⟨rfl, by decide⟩

/-- **C70** Time points with other units are refused. -/
theorem C70_other_units (gmtime : Int → Civil) (clock : Nat) (count : Int) (u : TUnit)
    (hu : ¬ u.Printable) : toIsoDate gmtime clock count u = .error .unit := by
  cases u <;> first | rfl | (exact absurd (by simp [TUnit.Printable]) hu)

example : ¬ (TUnit.coarse).Printable := by simp [TUnit.Printable]

/-! ### Long arrays -/

/-- **C70** The text of an array of up to four elements shows all of them, in order. -/
theorem C70_array_short {α : Type} (arr : List α) (h : arr.length ≤ 4) :
    arrayToString arr = .ok (arr.map .elem) := by
  match arr, h with
  | [], _ => rfl
  | [_], _ => rfl
  | [_, _], _ => rfl
  | [_, _, _], _ => rfl
  | [_, _, _, _], _ => rfl
  | _ :: _ :: _ :: _ :: _ :: _, h => simp at h; omega

/-- **C70** The text of a longer array shows its first two and last two elements, with
the omission marked. -/
theorem C70_array_long {α : Type} (a b c d : α) (mid : List α) (h : mid ≠ []) :
    arrayToString (a :: b :: (mid ++ [c, d])) =
      .ok [.elem a, .elem b, .dots, .elem c, .elem d] := by
  obtain ⟨m, ms, rfl⟩ := List.exists_cons_of_ne_nil h
  have hl : (a :: b :: (m :: ms ++ [c, d])).length = ms.length + 5 := by simp
  unfold arrayToString
  rw [hl, if_neg (by omega)]
  have g1 : (a :: b :: (m :: ms ++ [c, d]))[ms.length + 3]? = some c := by
    simp
  have g2 : (a :: b :: (m :: ms ++ [c, d]))[ms.length + 4]? = some d := by
    simp
  generalize hx : (a :: b :: (m :: ms ++ [c, d])) = x at hl g1 g2 ⊢
  have x0 : x[0]? = some a := by rw [← hx]; rfl
  have x1 : x[1]? = some b := by rw [← hx]; rfl
  obtain ⟨_, x0⟩ := List.getElem?_eq_some_iff.1 x0
  obtain ⟨_, x1⟩ := List.getElem?_eq_some_iff.1 x1
  obtain ⟨_, g1⟩ := List.getElem?_eq_some_iff.1 g1
  obtain ⟨_, g2⟩ := List.getElem?_eq_some_iff.1 g2
  simp [arrayLoop, hl, bind, Except.bind, x0, x1, g1, g2]

example : arrayToString [1, 2, 3, 4, 5] = .ok [.elem 1, .elem 2, .dots, .elem 4, .elem 5] ∧
    arrayToString [1, 2, 3, 4] = .ok [.elem 1, .elem 2, .elem 3, .elem 4] := ⟨rfl, rfl⟩

end Scipp.Props
