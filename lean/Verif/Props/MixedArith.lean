import Verif.Spec.MixedArith
import Verif.Props.FloorDivide
import Mathlib.Tactic.SplitIfs
import Mathlib.Tactic.Linarith
import Mathlib.Algebra.Order.Field.Basic
/-!
C89: arithmetic of elements of different types, out of place and in place (`lib/core/include/scipp/core/element/arithmetic.h`).
-/
namespace Scipp.Props
open Scipp MixedArith
variable {F : Floats}

private theorem map_ok {α β : Type} {e : Except Err α} {f : α → β} {r : β} (h : e.map f = .ok r) : ∃ x, e = .ok x ∧ r = f x := by
  cases e with
  | error e => cases h
  | ok x => exact ⟨x, rfl, (Except.ok.inj h).symm⟩

private theorem builtin_et {op : FOp} {a b r : Val F} (h : builtin op a b = .ok r) : r.et = common a.et b.et := by
  unfold builtin at h
  have hc : common a.et b.et = .f64 ∨ common a.et b.et = .f32 ∨ common a.et b.et = .i64 ∨ common a.et b.et = .i32 := by
    unfold common; split_ifs <;> simp
  rcases hc with hc | hc | hc | hc <;> rw [hc] at h ⊢ <;> dsimp only at h
  · cases h; rfl
  · cases h; rfl
  · obtain ⟨x, _, rfl⟩ := map_ok h; rfl
  · obtain ⟨x, _, rfl⟩ := map_ok h; rfl

private theorem plus_builtin {a b : Val F} (ha : a.et ≠ .time) (hb : b.et ≠ .time) : plus a b = builtin .add a b := by
  cases a <;> cases b <;> first | rfl | exact absurd rfl ha | exact absurd rfl hb

private theorem minus_builtin {a b : Val F} (ha : a.et ≠ .time) (hb : b.et ≠ .time) : minus a b = builtin .sub a b := by
  cases a <;> cases b <;> first | rfl | exact absurd rfl ha | exact absurd rfl hb

private theorem not_time {a : ET} (h : a.isNumber) : a ≠ .time := by rintro rfl; cases h

private theorem common_wider {a b : ET} (ha : a ≠ .time) (hb : b ≠ .time) (hbool : ¬ (a = .bool ∧ b = .bool)) : common a b = wider a b := by
  revert ha hb hbool
  cases a <;> cases b <;> decide

private theorem floor_et (v : Val F) : v.floor.et = v.et := by cases v <;> rfl

private theorem floorDivide_et {a b r : Val F} (h : MixedArith.floorDivide a b = .ok r) : r.et = common a.et b.et := by
  unfold MixedArith.floorDivide at h
  split_ifs at h with h1 h2
  · obtain ⟨x, _, rfl⟩ := map_ok h
    rw [h2]; rfl
  · obtain ⟨x, _, rfl⟩ := map_ok h
    revert h1 h2
    cases a <;> cases b <;> simp [Val.et, ET.isInt, common]
  · obtain ⟨x, hx, rfl⟩ := map_ok h
    rw [floor_et, builtin_et hx]

private theorem common_assoc (a b : ET) : common (common a b) b = common a b ∧ common a (common a b) = common a b := by
  cases a <;> cases b <;> decide

private theorem remainder_et {a b r : Val F} (h : MixedArith.remainder a b = .ok r) : r.et = common a.et b.et := by
  unfold MixedArith.remainder at h
  have hc : common a.et b.et = .f64 ∨ common a.et b.et = .f32 ∨ common a.et b.et = .i64 ∨ common a.et b.et = .i32 := by
    unfold common; split_ifs <;> simp
  split_ifs at h
  · rcases hc with hc | hc | hc | hc <;> rw [hc] at h ⊢ <;> cases h <;> rfl
  · cases hq : MixedArith.floorDivide a b with
    | error e => rw [hq] at h; cases h
    | ok q =>
      rw [hq] at h
      simp only [bind, Except.bind] at h
      cases hp : builtin .mul q b with
      | error e => rw [hp] at h; cases h
      | ok p =>
        rw [hp] at h
        have := builtin_et h
        rw [this, builtin_et hp, floorDivide_et hq, (common_assoc _ _).1, (common_assoc _ _).2]

/-- **C89** (types): the result of an operation on numbers has the wider of the two types, that of a division of integers is `double`. -/
theorem C89_dtype (op : Op) (a b r : Val F) (ha : a.et ≠ .time) (hb : b.et ≠ .time) (hbool : ¬ (a.et = .bool ∧ b.et = .bool))
    (h : binary op a b = .ok r) : r.et = resultType op a.et b.et := by
  unfold binary at h
  split_ifs at h with hs
  have hw := common_wider ha hb hbool
  cases op with
  | add =>
    have : plus a b = builtin .add a b := plus_builtin ha hb
    dsimp only at h
    rw [this] at h
    rw [builtin_et h, hw]; rfl
  | sub =>
    have : minus a b = builtin .sub a b := minus_builtin ha hb
    dsimp only at h
    rw [this] at h
    rw [builtin_et h, hw]; rfl
  | mul => rw [builtin_et h, hw]; rfl
  | div =>
    simp only [Bool.not_eq_false, supported, Bool.and_eq_true] at hs
    dsimp only [trueDivide] at h
    split_ifs at h with hi
    · cases h
      unfold resultType
      rw [if_pos]
      · rfl
      · revert hi; cases a <;> cases b <;> simp [Val.et, ET.isInt, ET.isFloat]
    · rw [builtin_et h, hw]
      unfold resultType
      rw [if_neg]
      revert hi hs; cases a <;> cases b <;> simp [Val.et, ET.isInt, ET.isFloat, ET.isNumber]
  | floorDiv => rw [floorDivide_et h, hw]; rfl
  | mod => rw [remainder_et h, hw]; rfl

/-- **C89** (integers): adding, subtracting and multiplying integers is exact, or undefined if the result does not fit. -/
theorem C89_integers (op : Op) (a b : Val F) (x : Int) (hx : exact op a.asInt b.asInt = some x) (ha : a.et = .i64 ∨ a.et = .i32)
    (hb : b.et = .i64 ∨ b.et = .i32) (r : Val F) :
    (binary op a b = .ok r ↔ r.et = wider a.et b.et ∧ r.InRange ∧ r.asInt = x) ∧
    ((∃ r, binary op a b = .ok r) ∨ binary op a b = .error .ub) := by
  have hcore : ∀ (o : FOp), intOp o a.asInt b.asInt = x →
      (builtin o a b = .ok r ↔ r.et = wider a.et b.et ∧ r.InRange ∧ r.asInt = x) ∧ ((∃ r, builtin o a b = .ok r) ∨ builtin o a b = .error .ub) := by
    intro o ho
    unfold builtin
    have hc : (common a.et b.et = .i64 ∨ common a.et b.et = .i32) ∧ common a.et b.et = wider a.et b.et := by
      rcases ha with ha | ha <;> rcases hb with hb | hb <;> rw [ha, hb] <;> decide
    rw [← hc.2]
    rcases hc.1 with hc | hc <;> rw [hc] <;> dsimp only <;> rw [ho] <;> unfold fit <;> split_ifs with hf
    · refine ⟨?_, .inl ⟨_, rfl⟩⟩
      constructor
      · intro h; cases h; exact ⟨rfl, hf, rfl⟩
      · rintro ⟨h1, h2, h3⟩
        cases r <;> first | (cases h1; done) | (simp only [Val.asInt] at h3; rw [h3]; rfl)
    · refine ⟨?_, .inr rfl⟩
      constructor
      · intro h; cases h
      · rintro ⟨h1, h2, h3⟩
        cases r <;> first | (cases h1; done) | (simp only [Val.asInt] at h3; rw [h3] at h2; exact absurd h2 hf)
    · refine ⟨?_, .inl ⟨_, rfl⟩⟩
      constructor
      · intro h; cases h; exact ⟨rfl, hf, rfl⟩
      · rintro ⟨h1, h2, h3⟩
        cases r <;> first | (cases h1; done) | (simp only [Val.asInt] at h3; rw [h3]; rfl)
    · refine ⟨?_, .inr rfl⟩
      constructor
      · intro h; cases h
      · rintro ⟨h1, h2, h3⟩
        cases r <;> first | (cases h1; done) | (simp only [Val.asInt] at h3; rw [h3] at h2; exact absurd h2 hf)
  have hat : a.et ≠ .time := by rcases ha with ha | ha <;> rw [ha] <;> decide
  have hbt : b.et ≠ .time := by rcases hb with hb | hb <;> rw [hb] <;> decide
  unfold binary
  have hs : supported op a.et b.et = true := by
    rcases ha with ha | ha <;> rcases hb with hb | hb <;> rw [ha, hb] <;> cases op <;> rfl
  rw [hs, if_neg (by simp)]
  cases op with
  | add =>
    have : plus a b = builtin .add a b := plus_builtin hat hbt
    simp only [this]
    exact hcore .add (Option.some.inj hx)
  | sub =>
    have : minus a b = builtin .sub a b := minus_builtin hat hbt
    simp only [this]
    exact hcore .sub (Option.some.inj hx)
  | mul => exact hcore .mul (Option.some.inj hx)
  | div => cases hx
  | floorDiv => cases hx
  | mod => cases hx

/-- **C89** (dividing integers): `a // b` of integers of magnitude below `2^53` is the quotient rounded towards minus infinity, in the wider type, or
undefined if it does not fit that type. -/
theorem C89_floor_division (a b : Val F) (ha : a.et = .i64 ∨ a.et = .i32) (hb : b.et = .i64 ∨ b.et = .i32) (h0 : b.asInt ≠ 0)
    (hma : |a.asInt| < 2 ^ 53) (hmb : |b.asInt| < 2 ^ 53) (r : Val F) :
    (binary .floorDiv a b = .ok r ↔ r.et = wider a.et b.et ∧ r.InRange ∧ r.asInt = ⌊(a.asInt : ℚ) / b.asInt⌋) ∧
    ((∃ r, binary .floorDiv a b = .ok r) ∨ binary .floorDiv a b = .error .ub) := by
  have hc : (common a.et b.et = .i64 ∨ common a.et b.et = .i32) ∧ common a.et b.et = wider a.et b.et := by
    rcases ha with ha | ha <;> rcases hb with hb | hb <;> rw [ha, hb] <;> decide
  have hs : supported .floorDiv a.et b.et = true := by rcases ha with ha | ha <;> rcases hb with hb | hb <;> rw [ha, hb] <;> rfl
  have hi : a.et.isInt = true ∧ b.et.isInt = true := by rcases ha with ha | ha <;> rcases hb with hb | hb <;> rw [ha, hb] <;> decide
  unfold binary
  rw [hs, if_neg (by simp)]
  simp only [floorDivide, if_pos hi, floorDivide_eq hma hmb h0]
  rw [← hc.2]
  generalize ⌊(a.asInt : ℚ) / b.asInt⌋ = x
  rcases hc.1 with hc | hc <;> rw [hc]
  · rw [if_pos rfl]; unfold fit; split_ifs with hf
    · refine ⟨⟨fun h => ?_, ?_⟩, .inl ⟨_, rfl⟩⟩
      · cases h; exact ⟨rfl, hf, rfl⟩
      · rintro ⟨h1, h2, h3⟩
        cases r <;> first | (cases h1; done) | (simp only [Val.asInt] at h3; rw [h3]; rfl)
    · refine ⟨⟨(fun h => by cases h), ?_⟩, .inr rfl⟩
      rintro ⟨h1, h2, h3⟩
      cases r <;> first | (cases h1; done) | (simp only [Val.asInt] at h3; rw [h3] at h2; exact absurd h2 hf)
  · rw [if_neg (by decide)]; unfold fit; split_ifs with hf
    · refine ⟨⟨fun h => ?_, ?_⟩, .inl ⟨_, rfl⟩⟩
      · cases h; exact ⟨rfl, hf, rfl⟩
      · rintro ⟨h1, h2, h3⟩
        cases r <;> first | (cases h1; done) | (simp only [Val.asInt] at h3; rw [h3]; rfl)
    · refine ⟨⟨(fun h => by cases h), ?_⟩, .inr rfl⟩
      rintro ⟨h1, h2, h3⟩
      cases r <;> first | (cases h1; done) | (simp only [Val.asInt] at h3; rw [h3] at h2; exact absurd h2 hf)

example : binary (F := F) .floorDiv (.i64 (-7)) (.i32 2) = .ok (.i64 (-4)) :=
  (C89_floor_division (.i64 (-7)) (.i32 2) (.inl rfl) (.inr rfl) (by simp [Val.asInt]) (by simp [Val.asInt]) (by simp [Val.asInt]) _).1.mpr
    ⟨rfl, by constructor <;> decide, by simp only [Val.asInt]; exact (Int.floor_eq_iff.mpr (by norm_num)).symm⟩

/-- **C89** (remainders of integers, the part that holds): if `a % b` of integers of magnitude below `2^53` is defined, it is `a - ⌊a / b⌋ b`. -/
theorem C89_integer_remainder_partial (a b r : Val F) (ha : a.et = .i64 ∨ a.et = .i32) (hb : b.et = .i64 ∨ b.et = .i32) (h0 : b.asInt ≠ 0)
    (hma : |a.asInt| < 2 ^ 53) (hmb : |b.asInt| < 2 ^ 53) (h : binary .mod a b = .ok r) :
    r.et = wider a.et b.et ∧ r.asInt = a.asInt - ⌊(a.asInt : ℚ) / b.asInt⌋ * b.asInt := by
  have hs : supported .mod a.et b.et = true := by rcases ha with ha | ha <;> rcases hb with hb | hb <;> rw [ha, hb] <;> rfl
  have hs2 : supported .floorDiv a.et b.et = true := by rcases ha with ha | ha <;> rcases hb with hb | hb <;> rw [ha, hb] <;> rfl
  unfold binary at h
  rw [hs, if_neg (by simp)] at h
  simp only [remainder] at h
  have hz : b.isZero = false := by
    revert h0; rcases hb with hb | hb <;> revert hb <;> cases b <;> simp [Val.et, Val.isZero, Val.asInt] <;> exact fun h => decide_eq_false h
  rw [hz, if_neg (by simp)] at h
  cases hq : floorDivide a b with
  | error e => rw [hq] at h; cases h
  | ok q =>
    have hb' : binary .floorDiv a b = .ok q := by unfold binary; rw [hs2, if_neg (by simp)]; exact hq
    obtain ⟨q1, _, q3⟩ := (C89_floor_division a b ha hb h0 hma hmb q).1.mp hb'
    rw [hq] at h
    simp only [bind, Except.bind] at h
    have hqt : q.et = .i64 ∨ q.et = .i32 := by rw [q1]; rcases ha with ha | ha <;> rcases hb with hb | hb <;> rw [ha, hb] <;> decide
    cases hp : builtin .mul q b with
    | error e => rw [hp] at h; cases h
    | ok p =>
      rw [hp] at h
      have hbm : binary .mul q b = .ok p := by
        unfold binary
        rw [show supported .mul q.et b.et = true from by rcases hqt with hq | hq <;> rcases hb with hb | hb <;> rw [hq, hb] <;> rfl, if_neg (by simp)]
        exact hp
      obtain ⟨p1, _, p3⟩ := (C89_integers .mul q b _ rfl hqt hb p).1.mp hbm
      have hpt : p.et = .i64 ∨ p.et = .i32 := by rw [p1]; rcases hqt with hq | hq <;> rcases hb with hb | hb <;> rw [hq, hb] <;> decide
      have hbs : binary .sub a p = .ok r := by
        unfold binary
        rw [show supported .sub a.et p.et = true from by rcases hpt with hq | hq <;> rcases ha with ha | ha <;> rw [hq, ha] <;> rfl, if_neg (by simp)]
        have : minus a p = builtin .sub a p := minus_builtin (by rcases ha with ha | ha <;> rw [ha] <;> decide) (by rcases hpt with ha | ha <;> rw [ha] <;> decide)
        exact this.trans h
      obtain ⟨r1, _, r3⟩ := (C89_integers .sub a p _ rfl ha hpt r).1.mp hbs
      refine ⟨?_, by rw [r3, p3, q3]⟩
      rw [r1, p1, q1]
      rcases ha with ha | ha <;> rcases hb with hb | hb <;> rw [ha, hb] <;> decide

example (r : Val F) (h : binary (F := F) .mod (.i64 (-7)) (.i32 3) = .ok r) : r.asInt = 2 := by
  have := (C89_integer_remainder_partial (.i64 (-7)) (.i32 3) r (.inl rfl) (.inr rfl) (by simp [Val.asInt]) (by simp [Val.asInt]) (by simp [Val.asInt]) h).2
  rw [this]; simp only [Val.asInt]
  have : ⌊((-7 : Int) : ℚ) / ((3 : Int) : ℚ)⌋ = -3 := Int.floor_eq_iff.mpr (by norm_num)
  rw [this]; norm_num

/-- **C89** (remainders of integers, when they are defined): if quotient and product fit the wider type, the remainder is computed. -/
theorem C89_integer_remainder_defined (a b : Val F) (ha : a.et = .i64 ∨ a.et = .i32) (hb : b.et = .i64 ∨ b.et = .i32) (h0 : b.asInt ≠ 0)
    (hma : |a.asInt| < 2 ^ 53) (hmb : |b.asInt| < 2 ^ 53) (hr : b.InRange) (p q : Val F) (hp : p.et = wider a.et b.et)
    (hq : q.et = wider a.et b.et) (hpr : p.InRange) (hqr : q.InRange) (hqv : q.asInt = ⌊(a.asInt : ℚ) / b.asInt⌋)
    (hpv : p.asInt = q.asInt * b.asInt) : ∃ r, binary .mod a b = .ok r := by
  have hs : supported .mod a.et b.et = true := by rcases ha with ha | ha <;> rcases hb with hb | hb <;> rw [ha, hb] <;> rfl
  have hs2 : supported .floorDiv a.et b.et = true := by rcases ha with ha | ha <;> rcases hb with hb | hb <;> rw [ha, hb] <;> rfl
  have hz : b.isZero = false := by
    revert h0; rcases hb with hb | hb <;> revert hb <;> cases b <;> simp [Val.et, Val.isZero, Val.asInt] <;> exact fun h => decide_eq_false h
  have e1 := (C89_floor_division a b ha hb h0 hma hmb q).1.mpr ⟨hq, hqr, hqv⟩
  have hw : wider a.et b.et = .i64 ∨ wider a.et b.et = .i32 := by rcases ha with ha | ha <;> rcases hb with hb | hb <;> rw [ha, hb] <;> decide
  have hqt : q.et = .i64 ∨ q.et = .i32 := by rw [hq]; exact hw
  have hpt : p.et = .i64 ∨ p.et = .i32 := by rw [hp]; exact hw
  have e2 := (C89_integers .mul q b _ rfl hqt hb p).1.mpr
    ⟨by rw [hp, hq]; rcases ha with ha | ha <;> rcases hb with hb | hb <;> rw [ha, hb] <;> decide, hpr, hpv⟩
  have hd : |a.asInt - p.asInt| < |b.asInt| := by
    have hbq : (b.asInt : ℚ) ≠ 0 := by exact_mod_cast h0
    have f1 : (q.asInt : ℚ) ≤ (a.asInt : ℚ) / b.asInt := by rw [hqv]; exact Int.floor_le _
    have f2 : (a.asInt : ℚ) / b.asInt < q.asInt + 1 := by rw [hqv]; exact Int.lt_floor_add_one _
    rw [hpv]
    rcases lt_or_gt_of_ne h0 with hn | hn
    · have hn' : (b.asInt : ℚ) < 0 := by exact_mod_cast hn
      rw [le_div_iff_of_neg hn'] at f1
      rw [div_lt_iff_of_neg hn'] at f2
      have g1 : a.asInt ≤ q.asInt * b.asInt := by exact_mod_cast f1
      have g2 : (q.asInt + 1) * b.asInt < a.asInt := by exact_mod_cast f2
      rw [abs_of_nonpos (by linarith), abs_of_neg hn]; linarith
    · have hn' : (0 : ℚ) < b.asInt := by exact_mod_cast hn
      rw [le_div_iff₀ hn'] at f1
      rw [div_lt_iff₀ hn'] at f2
      have g1 : q.asInt * b.asInt ≤ a.asInt := by exact_mod_cast f1
      have g2 : a.asInt < (q.asInt + 1) * b.asInt := by exact_mod_cast f2
      rw [abs_of_nonneg (by linarith), abs_of_pos hn]; linarith
  have hwp : wider a.et p.et = wider a.et b.et := by
    rw [hp]; rcases ha with ha | ha <;> rcases hb with hb | hb <;> rw [ha, hb] <;> decide
  have hbr : -2 ^ 63 ≤ b.asInt ∧ b.asInt < 2 ^ 63 ∧ (wider a.et b.et = .i32 → -2 ^ 31 ≤ b.asInt ∧ b.asInt < 2 ^ 31) := by
    revert hr hb
    cases b <;> simp only [Val.InRange, Val.et, Val.asInt] <;> intro hb hr
    all_goals first | (rcases hb with hb | hb <;> cases hb; done) | skip
    · refine ⟨hr.1, hr.2, fun h => ?_⟩
      have h' : wider a.et .i64 = .i32 := h
      rcases ha with ha | ha <;> rw [ha] at h' <;> exact absurd h' (by decide)
    · exact ⟨by omega, by omega, fun _ => hr⟩
  have e3 : ∃ r, binary .sub a p = .ok r := by
    rcases hw with hw | hw
    · refine ⟨.i64 (a.asInt - p.asInt), (C89_integers .sub a p _ rfl ha hpt _).1.mpr ⟨(by rw [hwp, hw]; rfl), ?_, rfl⟩⟩
      have := abs_lt.mp hd
      have h3 : |b.asInt| ≤ 2 ^ 63 - 1 := le_trans hmb.le (by norm_num)
      exact ⟨by linarith [this.1], by linarith [this.2]⟩
    · refine ⟨.i32 (a.asInt - p.asInt), (C89_integers .sub a p _ rfl ha hpt _).1.mpr ⟨(by rw [hwp, hw]; rfl), ?_, rfl⟩⟩
      have := abs_lt.mp hd
      have h3 : |b.asInt| ≤ 2 ^ 31 := abs_le.mpr ⟨by linarith [(hbr.2.2 hw).1], by linarith [(hbr.2.2 hw).2]⟩
      exact ⟨by linarith [this.1], by linarith [this.2]⟩
  obtain ⟨r, e3⟩ := e3
  refine ⟨r, ?_⟩
  have u1 : floorDivide a b = .ok q := by unfold binary at e1; rw [hs2, if_neg (by simp)] at e1; exact e1
  have u2 : builtin .mul q b = .ok p := by
    unfold binary at e2
    rw [show supported .mul q.et b.et = true from by rcases hqt with hq | hq <;> rcases hb with hb | hb <;> rw [hq, hb] <;> rfl, if_neg (by simp)] at e2
    exact e2
  have u3 : builtin .sub a p = .ok r := by
    unfold binary at e3
    rw [show supported .sub a.et p.et = true from by rcases hpt with hq | hq <;> rcases ha with ha | ha <;> rw [hq, ha] <;> rfl, if_neg (by simp)] at e3
    have : minus a p = builtin .sub a p := minus_builtin (by rcases ha with ha | ha <;> rw [ha] <;> decide) (by rcases hpt with ha | ha <;> rw [ha] <;> decide)
    exact this.symm.trans e3
  unfold binary
  rw [hs, if_neg (by simp)]
  simp only [remainder]
  rw [hz, if_neg (by simp), u1]
  simp only [bind, Except.bind, u2]
  exact u3

example : ∃ r, binary (F := F) .mod (.i64 (-7)) (.i32 3) = .ok r :=
  C89_integer_remainder_defined (.i64 (-7)) (.i32 3) (.inl rfl) (.inr rfl) (by simp [Val.asInt]) (by simp [Val.asInt]) (by simp [Val.asInt])
    (by constructor <;> decide) (.i64 (-9)) (.i64 (-3)) rfl rfl (by constructor <;> decide) (by constructor <;> decide)
    (by simp only [Val.asInt]; exact (Int.floor_eq_iff.mpr (by norm_num)).symm) rfl

/-- **C89 is violated** (remainder near the smallest integer): the remainder of `-2^31` by 3 is 1, which fits, but the code computes the product
`⌊-2^31 / 3⌋ · 3 = -2^31 - 1`, which overflows: undefined behaviour. -/
theorem C89_wrong_remainder_overflow :
    binary (F := F) .mod (.i32 (-2 ^ 31)) (.i32 3) = .error .ub ∧ (-2 ^ 31 : Int).fmod 3 = 1 := by
  refine ⟨?_, by decide⟩
  have hq : Numeric.floorDivide (-2 ^ 31) 3 = -715827883 := by
    rw [floorDivide_eq (by decide) (by decide) (by decide)]
    exact Int.floor_eq_iff.mpr (by norm_num)
  have h1 : floorDivide (F := F) (.i32 (-2 ^ 31)) (.i32 3) = .ok (.i32 (-715827883)) := by
    simp only [floorDivide, Val.et, Val.asInt, hq]; rfl
  have h2 : remainder (F := F) (.i32 (-2 ^ 31)) (.i32 3) = .error .ub := by
    simp only [remainder, h1]; rfl
  exact h2

/-- **C89** (floating-point numbers): an operation on numbers of which one is a floating-point number always succeeds. -/
theorem C89_floats (op : Op) (a b : Val F) (ha : a.et.isNumber) (hb : b.et.isNumber) (hf : a.et.isFloat ∨ b.et.isFloat) :
    ∃ r, binary op a b = .ok r := by
  have hs : supported op a.et b.et = true := by
    cases op <;> simp [supported, ha, hb]
  unfold binary
  rw [hs, if_neg (by simp)]
  have hbuilt : ∀ (c d : Val F) (o : FOp), c.et.isFloat ∨ d.et.isFloat → ∃ r, builtin o c d = .ok r ∧ r.et.isFloat := by
    intro c d o hcd
    unfold builtin
    cases c <;> cases d <;> simp [Val.et, ET.isFloat] at hcd <;> exact ⟨_, rfl, rfl⟩
  have hfd : ∃ r, MixedArith.floorDivide a b = .ok r ∧ r.et.isFloat := by
    unfold MixedArith.floorDivide
    rw [if_neg (by rcases hf with h | h <;> revert h <;> cases a <;> cases b <;> simp [Val.et, ET.isFloat, ET.isInt])]
    obtain ⟨r, h, h2⟩ := hbuilt a b .div hf
    rw [h]
    exact ⟨_, rfl, by rw [floor_et]; exact h2⟩
  cases op with
  | add =>
    have : plus a b = builtin .add a b := plus_builtin (not_time ha) (not_time hb)
    dsimp only
    rw [this]
    obtain ⟨r, h, _⟩ := hbuilt a b .add hf
    exact ⟨r, h⟩
  | sub =>
    have : minus a b = builtin .sub a b := minus_builtin (not_time ha) (not_time hb)
    dsimp only
    rw [this]
    obtain ⟨r, h, _⟩ := hbuilt a b .sub hf
    exact ⟨r, h⟩
  | mul =>
    obtain ⟨r, h, _⟩ := hbuilt a b .mul hf
    exact ⟨r, h⟩
  | div =>
    dsimp only [trueDivide]
    split_ifs
    · exact ⟨_, rfl⟩
    · obtain ⟨r, h, _⟩ := hbuilt a b .div hf
      exact ⟨r, h⟩
  | floorDiv => exact ⟨_, hfd.choose_spec.1⟩
  | mod =>
    dsimp only
    unfold MixedArith.remainder
    split_ifs
    · split <;> exact ⟨_, rfl⟩
    · obtain ⟨q, hq, hq2⟩ := hfd
      obtain ⟨p, hp, hp2⟩ := hbuilt q b .mul (.inl hq2)
      obtain ⟨r, hr, _⟩ := hbuilt a p .sub (.inr hp2)
      exact ⟨r, by simp only [hq, bind, Except.bind, hp, hr]⟩

/-- **C89** (remainders): the remainder of a division by the integer zero is zero for integers and NaN for floating-point
numbers; for any other integer divisor the remainder of a floating-point number is what is left after subtracting the rounded-down
quotient times the divisor. -/
theorem C89_remainder (x : F.F64) (y : F.F32) (a b : Val F) (ha : a.et = .i64 ∨ a.et = .i32) (hb : b.et = .i64 ∨ b.et = .i32) :
    (b.asInt = 0 → binary .mod (.f64 x) b = .ok (.f64 (F.widen F.nan)) ∧ binary .mod (.f32 y) b = .ok (.f32 F.nan) ∧
      (∃ r, binary .mod a b = .ok r ∧ r.asInt = 0)) ∧
    (b.asInt ≠ 0 →
      binary .mod (.f64 x) b = .ok (.f64 (F.op64 .sub x (F.op64 .mul (F.floor64 (F.op64 .div x b.asF64)) b.asF64))) ∧
      binary .mod (.f32 y) b = .ok (.f32 (F.op32 .sub y (F.op32 .mul (F.floor32 (F.op32 .div y b.asF32)) b.asF32)))) := by
  constructor
  · intro h0
    cases b <;> simp only [Val.et, reduceCtorEq, or_self] at hb <;> simp only [Val.asInt] at h0 <;> subst h0 <;>
      refine ⟨rfl, rfl, ?_⟩ <;> cases a <;> simp only [Val.et, reduceCtorEq, or_self] at ha <;> exact ⟨_, rfl, rfl⟩
  · intro h0
    cases b <;> simp only [Val.et, reduceCtorEq, or_self] at hb <;> simp only [Val.asInt] at h0 <;>
      constructor <;> simp [binary, supported, Val.et, ET.isNumber, MixedArith.remainder, Val.isZero, Val.asInt, h0, MixedArith.floorDivide,
        ET.isInt, builtin, common, Val.floor, Val.asF64, Val.asF32] <;> rfl

example (x : F.F64) (y : F.F32) : binary .mod (.f64 x : Val F) (.i32 0) = .ok (.f64 (F.widen F.nan)) :=
  ((C89_remainder x y (.i64 5) (.i32 0) (.inl rfl) (.inr rfl)).1 rfl).1

/-- **C89** (order): sums and products do not depend on the order of the operands, if those of the machine do not. -/
theorem C89_commutes (h32 : ∀ x y, F.op32 .add x y = F.op32 .add y x ∧ F.op32 .mul x y = F.op32 .mul y x)
    (h64 : ∀ x y, F.op64 .add x y = F.op64 .add y x ∧ F.op64 .mul x y = F.op64 .mul y x) (op : Op) (hop : op = .add ∨ op = .mul) (a b : Val F) :
    binary op a b = binary op b a := by
  have hcomm : ∀ x y : ET, common x y = common y x := by
    intro x y; cases x <;> cases y <;> decide
  have hbuilt : ∀ o, (o = FOp.add ∨ o = FOp.mul) → builtin o a b = builtin o b a := by
    intro o ho
    unfold builtin
    rw [hcomm b.et a.et]
    rcases ho with rfl | rfl
    · rw [(h32 _ _).1, (h64 _ _).1]
      simp only [intOp, Int.add_comm]
    · rw [(h32 _ _).2, (h64 _ _).2]
      simp only [intOp, Int.mul_comm]
  have hsup : supported op a.et b.et = supported op b.et a.et := by
    rcases hop with rfl | rfl <;> generalize a.et = x <;> generalize b.et = y <;> cases x <;> cases y <;> decide
  unfold binary
  rw [hsup]
  rcases hop with rfl | rfl
  · have : supported .add b.et a.et = true → plus a b = plus b a := by
      intro hs
      have hba := hbuilt .add (.inl rfl)
      cases a <;> cases b <;> first
        | exact hba
        | (simp only [plus, Val.asInt, Int.add_comm]; done)
        | (exfalso; revert hs; simp only [Val.et]; decide)
    split_ifs with h
    · rfl
    · exact this (by simpa using h)
  · split_ifs
    · rfl
    · exact hbuilt .mul (.inr rfl)

private theorem inPlace_numbers_types (op : Op) (a b : ET) (ha : a.isNumber) (hb : b.isNumber) :
    supportedInPlace op a b = true ↔ (resultType op a b).isFloat = a.isFloat ∧ ¬ (op = .floorDiv ∧ a.isFloat = false ∧ a ≠ b) := by
  revert ha hb
  cases op <;> cases a <;> cases b <;> decide

/-- **C89** (in place, types): an operation in place on numbers exists unless it would turn integers into floating-point numbers; missing
is the floor division of integers of different sizes. -/
theorem C89_in_place_types_partial (op : Op) (a b : ET) (ha : a.isNumber) (hb : b.isNumber) :
    supportedInPlace op a b = true ↔ (resultType op a b).isFloat = a.isFloat ∧ ¬ (op = .floorDiv ∧ a.isFloat = false ∧ a ≠ b) :=
  inPlace_numbers_types op a b ha hb

private theorem assign_iff {t : ET} {q r : Val F} (ht : t.isNumber ∨ t = .time) (hq : q.et = .time ↔ t = .time) (hb : q.et ≠ .bool)
    (hf : q.et.isFloat → t.isFloat) :
    assign t q = .ok r ↔ r.et = t ∧ (q.et = t → r = q) ∧
      (t = .f64 → r = .f64 q.asF64) ∧ (t = .f32 → r = .f32 q.asF32) ∧ (∀ n, q = .i32 n → t = .i64 → r = .i64 n) ∧
      (∀ n, q = .i64 n → t = .i32 → r.InRange ∧ ∃ k : Int, r.asInt = n + k * 2 ^ 32) := by
  have hwrap : ∀ n m : Int, m = wrap32 n ↔ (-2 ^ 31 ≤ m ∧ m < 2 ^ 31) ∧ ∃ k : Int, m = n + k * 2 ^ 32 := by
    intro n m
    unfold wrap32
    constructor
    · rintro rfl
      exact ⟨by omega, -((n + 2 ^ 31) / 2 ^ 32), by omega⟩
    · rintro ⟨h1, k, h2⟩
      omega
  have hr : ∀ m, r = Val.i32 m ↔ r.et = .i32 ∧ r.asInt = m := by
    intro m
    cases r <;> simp [Val.et, Val.asInt]
  cases t <;> cases q <;> simp [Val.et, ET.isNumber, ET.isFloat] at ht hq hb hf <;>
    simp only [assign, Except.ok.injEq, Val.asF64, Val.asF32, Val.et, reduceCtorEq, false_implies, true_implies, and_true, implies_true, true_and, Val.i64.injEq,
      Val.i32.injEq, forall_eq'] <;>
    first
    | (constructor
       · rintro rfl; simp [Val.et]
       · rintro h; first | exact h.2.symm | exact (h.2.1).symm)
    | skip
  cases r with
  | i32 m =>
    simp only [Val.i32.injEq, Val.InRange, Val.asInt, true_and]
    rw [eq_comm]
    exact hwrap _ m
  | _ => simp

private theorem in_place_compute (op : Op) (a b : Val F) (hs : supportedInPlace op a.et b.et = true) (hb : b.et ≠ .bool) :
    inPlace op a b = (binary op a b >>= assign a.et) ∧ (a.et.isNumber ∧ b.et.isNumber ∨ a.et = .time ∧ (b.et = .i64 ∨ b.et = .i32) ∧ (op = .add ∨ op = .sub)) := by
  have hcase : supported op a.et b.et = true ∧ (op = .div → ¬ (a.et.isInt ∧ b.et.isInt)) ∧
      (a.et.isNumber ∧ b.et.isNumber ∨ a.et = .time ∧ (b.et = .i64 ∨ b.et = .i32) ∧ (op = .add ∨ op = .sub)) := by
    revert hs hb
    generalize a.et = x
    generalize b.et = y
    cases op <;> cases x <;> cases y <;> decide
  refine ⟨?_, hcase.2.2⟩
  unfold inPlace binary
  rw [hs, hcase.1]
  simp only [Bool.true_eq_false, if_false]
  cases op <;> first | rfl | skip
  dsimp only [trueDivide]
  rw [if_neg (hcase.2.1 rfl)]

/-- **C89** (in place): an operation in place gives the result of the operation out of place, converted to the type of the left operand. -/
theorem C89_in_place (op : Op) (a b : Val F) (hs : supportedInPlace op a.et b.et = true) (hb : b.et ≠ .bool) (r : Val F) :
    inPlace op a b = .ok r ↔ ∃ q, binary op a b = .ok q ∧ ConvertedTo a.et q r := by
  obtain ⟨hc, hcase⟩ := in_place_compute op a b hs hb
  rw [hc]
  cases hq : binary op a b with
  | error e => simp [bind, Except.bind]
  | ok q =>
    simp only [bind, Except.bind, Except.ok.injEq, exists_eq_left']
    rcases hcase with ⟨ha, hb'⟩ | ⟨ha, hb', hop⟩
    · have hne : ¬ (a.et = .bool ∧ b.et = .bool) := fun h => hb h.2
      have het := C89_dtype op a b q (not_time ha) (not_time hb') hne hq
      have htypes := (inPlace_numbers_types op a.et b.et ha hb').1 hs
      refine assign_iff (.inl ha) ?_ ?_ ?_
      · rw [het]
        revert ha hb'
        generalize a.et = x
        generalize b.et = y
        cases op <;> cases x <;> cases y <;> decide
      · rw [het]
        revert ha hb'
        generalize a.et = x
        generalize b.et = y
        cases op <;> cases x <;> cases y <;> decide
      · rw [het, htypes.1]
        exact id
    · have het : q.et = .time := by
        unfold binary at hq
        split_ifs at hq
        cases a with
        | time t =>
          rcases hop with rfl | rfl
          · obtain ⟨x, _, rfl⟩ := map_ok (show (fit 64 (t + b.asInt)).map Val.time = .ok q from hq)
            rfl
          · have : minus (.time t) b = (fit 64 (t - b.asInt)).map Val.time := by
              cases b <;> first | rfl | simp [Val.et] at hb'
            dsimp only at hq
            rw [this] at hq
            obtain ⟨x, _, rfl⟩ := map_ok hq
            rfl
        | _ => cases ha
      rw [ha]
      refine assign_iff (.inr rfl) ?_ ?_ ?_ <;> rw [het] <;> simp [ET.isFloat]

/-- **C89** (datetimes): adding a duration and subtracting it are inverse to each other, and the difference of two datetimes is the duration
between them. -/
theorem C89_datetimes (s t : Int) (d : Val F) (hd : d.et = .i64 ∨ d.et = .i32) (hs : -2 ^ 63 ≤ s ∧ s < 2 ^ 63) (ht : -2 ^ 63 ≤ t ∧ t < 2 ^ 63) :
    (binary .add (.time t) d = .ok (.time s) ↔ s = t + d.asInt) ∧
    (binary .add d (.time t) = .ok (.time s) ↔ s = t + d.asInt) ∧
    (binary .sub (.time s) d = .ok (.time t) ↔ s = t + d.asInt) ∧
    (inPlace .add (.time t) d = .ok (.time s) ↔ s = t + d.asInt) ∧
    (inPlace .sub (.time s) d = .ok (.time t) ↔ s = t + d.asInt) ∧
    ∀ n, -2 ^ 63 ≤ n → n < 2 ^ 63 → (binary .sub (.time s : Val F) (.time t) = .ok (.i64 n) ↔ s = t + n) := by
  have key : ∀ (x y : Int) (f : Int → Val F) (hf : ∀ u v, f u = f v → u = v), -2 ^ 63 ≤ y → y < 2 ^ 63 →
      ((fit 64 x).map f = .ok (f y) ↔ x = y) := by
    intro x y f hf h1 h2
    unfold fit
    split_ifs with h
    · constructor
      · intro he; exact hf _ _ (Except.ok.inj he)
      · rintro rfl; rfl
    · constructor
      · intro he; cases he
      · rintro rfl; exact absurd ⟨h1, h2⟩ h
  have ktime := fun x y h1 h2 => key x y Val.time (fun u v h => by cases h; rfl) h1 h2
  have kint := fun x y h1 h2 => key x y Val.i64 (fun u v h => by cases h; rfl) h1 h2
  have hA : ∀ x : Int, ((fit 64 x).map Val.time >>= assign .time : Except Err (Val F)) = (fit 64 x).map Val.time := by
    intro x; unfold fit; split_ifs <;> rfl
  have e1 : binary .add (.time t) d = (fit 64 (t + d.asInt)).map Val.time := by
    cases d <;> first | rfl | simp [Val.et] at hd
  have e2 : binary .add d (.time t) = (fit 64 (d.asInt + t)).map Val.time := by
    cases d <;> first | rfl | simp [Val.et] at hd
  have e3 : binary .sub (.time s) d = (fit 64 (s - d.asInt)).map Val.time := by
    cases d <;> first | rfl | simp [Val.et] at hd
  have e4 : inPlace .add (.time t) d = (fit 64 (t + d.asInt)).map Val.time := by
    rw [← hA]; cases d <;> first | rfl | simp [Val.et] at hd
  have e5 : inPlace .sub (.time s) d = (fit 64 (s - d.asInt)).map Val.time := by
    rw [← hA]; cases d <;> first | rfl | simp [Val.et] at hd
  refine ⟨?_, ?_, ?_, ?_, ?_, fun n h1 h2 => ?_⟩
  · rw [e1, ktime _ _ hs.1 hs.2, eq_comm]
  · rw [e2, ktime _ _ hs.1 hs.2, eq_comm, Int.add_comm]
  · rw [e3, ktime _ _ ht.1 ht.2]; omega
  · rw [e4, ktime _ _ hs.1 hs.2, eq_comm]
  · rw [e5, ktime _ _ ht.1 ht.2]; omega
  · have e6 : binary .sub (.time s : Val F) (.time t) = (fit 64 (s - t)).map Val.i64 := rfl
    rw [e6, kint _ _ h1 h2]; omega

/-- **C89** (datetimes): no other operations on datetimes are accepted. -/
theorem C89_datetimes_only (op : Op) (a b r : Val F) (h : a.et = .time ∨ b.et = .time) :
    (binary op a b = .ok r → (op = .add ∧ (a.et = .time ∧ (b.et = .i64 ∨ b.et = .i32) ∨ (a.et = .i64 ∨ a.et = .i32) ∧ b.et = .time) ∧ r.et = .time) ∨
      (op = .sub ∧ a.et = .time ∧ ((b.et = .i64 ∨ b.et = .i32) ∧ r.et = .time ∨ b.et = .time ∧ r.et = .i64))) ∧
    (inPlace op a b = .ok r → (op = .add ∨ op = .sub) ∧ a.et = .time ∧ (b.et = .i64 ∨ b.et = .i32)) := by
  constructor
  · intro hr
    unfold binary at hr
    split_ifs at hr with hs
    cases op <;> cases a <;> cases b <;> simp [Val.et] at h <;> simp [supported, Val.et, ET.isNumber] at hs <;>
      simp only [plus, minus] at hr <;> obtain ⟨x, _, rfl⟩ := map_ok hr <;> simp [Val.et]
  · intro hr
    unfold inPlace at hr
    split_ifs at hr with hs
    revert hs h
    generalize a.et = x
    generalize b.et = y
    cases op <;> cases x <;> cases y <;> decide

/-- **C89, where the code deviates**: adding a 64-bit integer to 32-bit integers in place wraps around silently. -/
theorem C89_wrong_wraps : inPlace .add (.i32 2147483647 : Val F) (.i64 1) = .ok (.i32 (-2147483648)) ∧
    binary .add (.i32 2147483647 : Val F) (.i64 1) = .ok (.i64 2147483648) ∧
    inPlace .mul (.i32 65536 : Val F) (.i64 65536) = .ok (.i32 0) := by
  refine ⟨?_, ?_, ?_⟩ <;> rfl

/-- **C89, where the code deviates**: a `bool` can be added in place but not out of place, and floating-point numbers can be multiplied with
it out of place but not in place. -/
theorem C89_wrong_bool (x : F.F64) (b : Bool) :
    binary .add (.f64 x) (.bool b) = .error .dtype ∧ (∃ r, inPlace .add (.f64 x) (.bool b) = .ok r) ∧
    inPlace .mul (.f64 x) (.bool b) = .error .dtype ∧ (∃ r, binary .mul (.f64 x) (.bool b) = .ok r) :=
  ⟨rfl, ⟨_, rfl⟩, rfl, ⟨_, rfl⟩⟩

/-- **C89, where the code deviates**: there is no floor division in place of 64-bit by 32-bit integers, although out of place it gives 64-bit
integers, and the remainder in place exists. -/
theorem C89_wrong_floor_divide (x y : Int) : inPlace .floorDiv (.i64 x : Val F) (.i32 y) = .error .dtype ∧
    supported .floorDiv .i64 .i32 = true ∧ supportedInPlace .mod .i64 .i32 = true :=
  ⟨rfl, rfl, rfl⟩

private def exF : Floats :=
  ⟨Int, Int, fun o x y => match o with | .add => x + y | .sub => x - y | .mul => x * y | .div => x / y,
    fun o x y => match o with | .add => x + y | .sub => x - y | .mul => x * y | .div => x / y, id, fun x => x / 10, fun n => n, fun n => n, id, id,
    fun x => x == 0, fun x => x == 0, -1⟩

example := C89_dtype (F := exF) .mod (.i32 7) (.f32 (2 : Int)) (.f32 (1 : Int)) (by decide) (by decide) (by decide) rfl

example := (C89_integers (F := exF) .mul (.i32 70000) (.i64 70000) 4900000000 rfl (.inr rfl) (.inl rfl) (.i64 4900000000)).1.2
  ⟨rfl, ⟨by decide, by decide⟩, rfl⟩

example := C89_floats (F := exF) .mod (.i32 7) (.f32 (2 : Int)) rfl rfl (.inr rfl)

example := C89_commutes (F := exF) (fun x y => ⟨Int.add_comm x y, Int.mul_comm x y⟩) (fun x y => ⟨Int.add_comm x y, Int.mul_comm x y⟩) .add (.inl rfl)
  (.i32 3) (.time 4)

example := C89_in_place_types_partial .add .f32 .i64 rfl rfl

example := (C89_in_place (F := exF) .add (.f32 (3 : Int)) (.f64 (45 : Int)) rfl (by decide) (.f32 (4 : Int))).1 rfl

example := C89_datetimes (F := exF) 17 12 (.i32 5) (.inr rfl) (by decide) (by decide)

example := (C89_datetimes_only (F := exF) .sub (.time 17) (.time 12) (.i64 5) (.inl rfl)).1 rfl

end Scipp.Props
