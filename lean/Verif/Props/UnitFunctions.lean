import Verif.Lemmas.UnitFunctions
import Mathlib.Tactic.NormNum
/-
C99: results do not depend on the units in which quantities are given.
-/
namespace Scipp.Props
open Scipp.UnitFn

variable {n : Nat}

/-- Unary functions: given the same quantity in two units, the results are the same quantity, including the uncertainty. Not true of `floor`, `ceil` and
`rint` (`C99_wrong_for_floor`), of powers that do not fit 32 bits (`C32_wrong_for_large_powers`) and of conversions with a factor close to an integer
(`C99_wrong_for_snapped_factor`). -/
theorem C99_unary_partial (l : Lib n) (hl : l.Ok) (f : Unary n) (a b ra rb : Qty n) (h : Same a b) (ha : f.Independent l a.unit) (hb : f.Independent l b.unit)
    (hra : f.run l a = .ok ra) (hrb : f.run l b = .ok rb) : Same ra rb := unary_same l hl f h ha hb hra hrb

/-- Binary functions: likewise. Not true of floor division of quantities with different units (`C99_wrong_for_floor_divide`). -/
theorem C99_binary_partial (l : Lib n) (hl : l.Ok) (f : Binary) (a a' b b' r r' : Qty n) (ha : Same a a') (hb : Same b b')
    (hi : f.Independent a.unit b.unit) (hi' : f.Independent a'.unit b'.unit) (hr : f.run l a b = .ok r) (hr' : f.run l a' b' = .ok r') : Same r r' :=
  binary_same l hl f ha hb hi hi' hr hr'

/-- Entire calculations: with every input given in other units, the outcome is the same quantity, including the uncertainty. -/
theorem C99_calculation_partial (l : Lib n) (hl : l.Ok) (e : Expr n) (env env' : Nat → Qty n) (h : ∀ i, Same (env i) (env' i))
    (hi : e.Independent l env) (hi' : e.Independent l env') (r r' : Qty n) (hr : e.eval l env = .ok r) (hr' : e.eval l env' = .ok r') : Same r r' := by
  induction e generalizing r r' with
  | input i => cases hr; cases hr'; exact h i
  | un f e ih =>
    obtain ⟨q, hq, hr⟩ := bind_ok hr
    obtain ⟨q', hq', hr'⟩ := bind_ok hr'
    exact unary_same l hl f (ih hi.1 hi'.1 q q' hq hq') (hi.2 q hq) (hi'.2 q' hq') hr hr'
  | bin f e₁ e₂ ih₁ ih₂ =>
    obtain ⟨a, ha, hr⟩ := bind_ok hr
    obtain ⟨b, hb, hr⟩ := bind_ok hr
    obtain ⟨a', ha', hr'⟩ := bind_ok hr'
    obtain ⟨b', hb', hr'⟩ := bind_ok hr'
    exact binary_same l hl f (ih₁ hi.1 hi'.1 a a' ha ha') (ih₂ hi.2.1 hi'.2.1 b b' hb hb') (hi.2.2 a b ha hb) (hi'.2.2 a' b' ha' hb') hr hr'

/-- Comparisons: the outcome is the same. -/
theorem C99_comparison (c : Compare) (a a' b b' : Qty n) (ha : Same a a') (hb : Same b b') (p p' : Prop) (hp : c.run a b = .ok p)
    (hp' : c.run a' b' = .ok p') : p ↔ p' := by
  unfold Compare.run at hp hp'
  split at hp
  · rename_i hu
    split at hp'
    · rename_i hu'
      cases hp; cases hp'
      rcases same_equal_units ha hb hu hu' with ⟨x, y, rfl, rfl, rfl, rfl⟩ | ⟨x, y, m, m', e, k, hm, hm', hk, hmm, rfl, rfl, rfl, rfl⟩
      · exact Iff.rfl
      · have hv : ∀ x : Num, (rescale k x).value = x.value * k := by intro x; cases x <;> rfl
        cases c <;> simp only [Compare.holds, hv, gt_iff_lt, ge_iff_le, mul_lt_mul_iff_left₀ hk, mul_le_mul_iff_left₀ hk, mul_eq_mul_right_iff, hk.ne', or_false]
    · cases hp'
  · cases hp

/-- `isclose`: likewise, with the tolerance given in the same unit. -/
theorem C99_isclose (a a' b b' t t' : Qty n) (ha : Same a a') (hb : Same b b') (ht : Same t t') (p p' : Prop) (hp : isclose a b t = .ok p)
    (hp' : isclose a' b' t' = .ok p') : p ↔ p' := by
  unfold isclose at hp hp'
  split at hp
  · rename_i hu
    split at hp
    · rename_i ht1
      split at hp'
      · rename_i hu'
        split at hp'
        · rename_i ht1'
          cases hp; cases hp'
          have hv : ∀ (k : ℝ) (x : Num), (rescale k x).value = x.value * k := by intro k x; cases x <;> rfl
          rcases same_equal_units ha hb hu hu' with ⟨x, y, rfl, rfl, rfl, rfl⟩ | ⟨x, y, m, m', e, k, hm, hm', hk, hmm, rfl, rfl, rfl, rfl⟩
          · rcases same_cases ht with ⟨z, rfl, rfl⟩ | ⟨z, q, q', e', k', hq, hq', hk', hqq, rfl, rfl⟩
            · exact Iff.rfl
            · cases ht1
          · rcases same_cases ht with ⟨z, rfl, rfl⟩ | ⟨z, q, q', e', k', hq, hq', hk', hqq, rfl, rfl⟩
            · cases ht1
            · cases ht1; cases ht1'
              have h0 : (m' : ℝ) ≠ 0 := by exact_mod_cast hm'.ne'
              have : k' = k := mul_right_cancel₀ h0 (hqq.symm.trans hmm)
              subst this
              simp only [hv, ← sub_mul, abs_mul, abs_of_pos hk', mul_le_mul_iff_left₀ hk']
        · cases hp'
      · cases hp'
    · cases hp
  · cases hp

/-- `to_unit`: the converted quantity has the requested unit and is the same quantity. -/
theorem C99_to_unit_partial (q r : Qty n) (u t : PreciseUnit n) (hu : q.unit = some u) (hpos : 0 < u.mult) (ht : 0 < t.mult) (hx : ExactFactor (u.mult / t.mult))
    (h : convert q (some t) = .ok r) : Same q r ∧ r.unit = some t :=
  convert_same (fun u' h' => by rw [hu] at h'; cases h'; exact hpos) (fun p w h1 h2 => by rw [hu] at h1; cases h1; cases h2; exact ⟨ht, hx⟩) h

/-- In any case the factor is accurate to a trillionth. -/
theorem C99_factor_accuracy (s : ℚ) (hs : 0 < s) : |scaleFactor s - s| ≤ 1 / 1000000000000 * s := by
  unfold scaleFactor
  dsimp only
  by_cases h : s > 1000000
  · simp only [h, if_true]
    split
    · rename_i h1
      have h2 : (0 : ℚ) < s * (1 / 1000000) := by positivity
      rw [abs_of_pos h2] at h1
      rw [abs_lt] at h1
      rw [abs_le]; constructor <;> linarith [h1.1, h1.2]
    · simp; positivity
  · simp only [h, if_false]
    split
    · rename_i h1
      rw [abs_of_pos hs, abs_lt] at h1
      rw [abs_le]; constructor <;> linarith [h1.1, h1.2]
    · simp; positivity

/-- Sine, cosine and tangent are those of the angle: a quantity of `v` units of `u` is an angle of `v * u.mult / rad.mult` radians. -/
theorem C99_trig (l : Lib n) (f : Trig) (v : ℝ) (u : PreciseUnit n) (hr : 0 < l.rad.mult) (he : u.exps = l.rad.exps) (hx : ExactFactor (u.mult / l.rad.mult)) :
    (Unary.trig f).run l ⟨.plain v, some u⟩ = .ok ⟨.plain (l.trig f (v * (u.mult / l.rad.mult))), MUnit.one⟩ := by
  have hr' : (l.rad.mult : ℝ) ≠ 0 := by exact_mod_cast hr.ne'
  have hc : convert ⟨.plain v, some u⟩ (some l.rad) = .ok ⟨.plain (v * (u.mult / l.rad.mult)), some l.rad⟩ := by
    unfold convert
    split
    · rename_i e
      dsimp only at e
      cases e
      rw [div_self hr', mul_one]
    · simp only [he, if_true, Num.times, scaleFactor_exact hx]
      push_cast; rfl
  simp only [Unary.run, hc]
  simp [bind, Except.bind, Num.noVariance, trigonometric]

/-- Anything that is not an angle is an error, and so are angles with variances. -/
theorem C99_trig_fails (l : Lib n) (f : Trig) (q : Qty n) (h : (∀ u, q.unit = some u → u.exps ≠ l.rad.exps) ∨ ∃ x, q.num = .pair x) :
    ∃ e, (Unary.trig f).run l q = .error e := by
  cases hr : (Unary.trig f).run l q with
  | error e => exact ⟨e, rfl⟩
  | ok r =>
    exfalso
    obtain ⟨p, hp, hr⟩ := bind_ok hr
    obtain ⟨v, hv, hr⟩ := bind_ok hr
    obtain ⟨x, u⟩ := q
    dsimp only at h
    unfold convert at hp
    split at hp
    · rename_i e
      dsimp only at e
      cases hp
      dsimp only at hv
      rcases h with h | ⟨y, rfl⟩
      · exact h l.rad e.symm rfl
      · cases hv
    · cases u with
      | none => cases hp
      | some u =>
        dsimp only at hp
        split at hp
        · rename_i he
          cases hp
          rcases h with h | ⟨y, rfl⟩
          · exact h u rfl he
          · cases hv
        · cases hp

private theorem exps_eq {a b : Qty n} (h : Same a b) :
    (a.unit = none ∧ b.unit = none) ∨ ∃ u w, a.unit = some u ∧ b.unit = some w ∧ u.exps = w.exps := by
  rcases same_cases h with ⟨x, rfl, rfl⟩ | ⟨x, m, m', e, c, hm, hm', hc, hmm, rfl, rfl⟩
  · exact .inl ⟨rfl, rfl⟩
  · exact .inr ⟨_, _, rfl, rfl, rfl⟩

private theorem kind_eq {a b : Qty n} (h : Same a b) : (∃ v w, a.num = .plain v ∧ b.num = .plain w) ∨ ∃ x y, a.num = .pair x ∧ b.num = .pair y := by
  rcases same_cases h with ⟨x, rfl, rfl⟩ | ⟨x, m, m', e, c, hm, hm', hc, hmm, rfl, rfl⟩
  · cases x with
    | plain v => exact .inl ⟨_, _, rfl, rfl⟩
    | pair v => exact .inr ⟨_, _, rfl, rfl⟩
  · cases x with
    | plain v => exact .inl ⟨_, _, rfl, rfl⟩
    | pair v => exact .inr ⟨_, _, rfl, rfl⟩

private theorem fits_eq (r : ExpRange n) {u w : PreciseUnit n} (h : u.exps = w.exps) : r.fits u = r.fits w := by
  unfold ExpRange.fits; rw [h]

private theorem convert_num {q r : Qty n} {t : MUnit n} (h : convert q t = .ok r) : (∃ v w, q.num = .plain v ∧ r.num = .plain w) ∨ ∃ x y, q.num = .pair x ∧ r.num = .pair y := by
  obtain ⟨x, u⟩ := q
  unfold convert at h
  split at h
  · cases h
    cases x with
    | plain v => exact .inl ⟨_, _, rfl, rfl⟩
    | pair v => exact .inr ⟨_, _, rfl, rfl⟩
  · cases u with
    | none => cases h
    | some u => cases t with
      | none => cases h
      | some t =>
        dsimp only at h
        split at h
        · cases h
          cases x with
          | plain v => exact .inl ⟨_, _, rfl, rfl⟩
          | pair v => exact .inr ⟨_, _, rfl, rfl⟩
        · cases h

private theorem convert_succeeds {a b : Qty n} (h : Same a b) (t : MUnit n) {r : Qty n} (hr : convert a t = .ok r) : ∃ r', convert b t = .ok r' := by
  rcases exps_eq h with ⟨h1, h2⟩ | ⟨u, w, h1, h2, he⟩
  · unfold convert at hr ⊢
    rw [h1] at hr; rw [h2]
    split at hr
    · rename_i e; rw [if_pos e]; exact ⟨_, rfl⟩
    · cases hr
  · unfold convert at hr ⊢
    rw [h1] at hr; rw [h2]
    split at hr
    · rename_i e
      subst e
      split
      · exact ⟨_, rfl⟩
      · dsimp only; rw [if_pos he.symm]; exact ⟨_, rfl⟩
    · cases t with
      | none => cases hr
      | some t =>
        dsimp only at hr
        split at hr
        · rename_i e
          split
          · exact ⟨_, rfl⟩
          · dsimp only; rw [if_pos (he.symm.trans e)]; exact ⟨_, rfl⟩
        · cases hr

private theorem convert_unit {q r : Qty n} {t : MUnit n} (h : convert q t = .ok r) : r.unit = t := by
  obtain ⟨x, u⟩ := q
  unfold convert at h
  split at h
  · rename_i e; cases h; exact e.symm
  · cases u with
    | none => cases h
    | some u => cases t with
      | none => cases h
      | some t =>
        dsimp only at h
        split at h
        · cases h; rfl
        · cases h

private theorem succeeds (l : Lib n) (f : Unary n) (hf : f.AnyUnit = true) {a b r : Qty n} (h : Same a b) (hr : f.run l a = .ok r) : ∃ r', f.run l b = .ok r' := by
  cases f with
  | exp => cases hf
  | log => cases hf
  | log10 => cases hf
  | special => cases hf
  | inv => cases hf
  | neg => exact ⟨_, rfl⟩
  | abs => exact ⟨_, rfl⟩
  | values => exact ⟨_, rfl⟩
  | sqrt =>
    obtain ⟨u, hu, rfl⟩ := map_ok hr
    simp only [Unary.run]
    rcases exps_eq h with ⟨h1, h2⟩ | ⟨p, w, h1, h2, he⟩
    · rw [h2]; exact ⟨_, rfl⟩
    · rw [h1] at hu; rw [h2]
      simp only [MUnit.sqrt, he] at hu ⊢
      split at hu
      · rename_i e; rw [if_pos e]; exact ⟨_, rfl⟩
      · cases hu
  | reciprocal =>
    obtain ⟨u, hu, rfl⟩ := map_ok hr
    simp only [Unary.run]
    rcases exps_eq h with ⟨h1, h2⟩ | ⟨p, w, h1, h2, he⟩
    · rw [h1] at hu; cases hu
    · rw [h1] at hu; rw [h2]
      simp only [MUnit.div, MUnit.one] at hu ⊢
      rw [fits_eq l.range (w := PreciseUnit.div ⟨1, fun _ => 0⟩ w) (by simp only [PreciseUnit.div, he])] at hu
      split at hu
      · rename_i e; rw [if_pos e]; exact ⟨_, rfl⟩
      · cases hu
  | pow p =>
    obtain ⟨u, hu, rfl⟩ := map_ok hr
    simp only [Unary.run]
    rcases exps_eq h with ⟨h1, h2⟩ | ⟨q, w, h1, h2, he⟩
    · rw [h2]; exact ⟨_, rfl⟩
    · rw [h1] at hu; rw [h2]
      simp only [MUnit.pow] at hu ⊢
      rw [fits_eq l.range (w := w.pow (MUnit.toInt p)) (by simp only [PreciseUnit.pow, he])] at hu
      split at hu
      · rename_i e; rw [if_pos e]; exact ⟨_, rfl⟩
      · cases hu
  | trig f =>
    obtain ⟨p, hp, hr⟩ := bind_ok hr
    obtain ⟨v, hv, hr⟩ := bind_ok hr
    obtain ⟨p', hp'⟩ := convert_succeeds h _ hp
    simp only [Unary.run, hp']
    rcases convert_num hp with ⟨x, y, hx, hy⟩ | ⟨x, y, hx, hy⟩
    · rcases convert_num hp' with ⟨x', y', hx', hy'⟩ | ⟨x', y', hx', hy'⟩
      · refine ⟨⟨.plain (l.trig f y'), MUnit.one⟩, ?_⟩
        have := convert_unit hp'
        simp [bind, Except.bind, hy', Num.noVariance, trigonometric, this]
      · rcases kind_eq h with ⟨_, _, k1, k2⟩ | ⟨_, _, k1, k2⟩
        · rw [k2] at hx'; cases hx'
        · rw [k1] at hx; cases hx
    · rw [hy] at hv; cases hv
  | floor =>
    obtain ⟨v, hv, hr⟩ := bind_ok hr
    rcases kind_eq h with ⟨_, _, k1, k2⟩ | ⟨_, _, k1, k2⟩
    · simp only [Unary.run, k2]; exact ⟨_, rfl⟩
    · rw [k1] at hv; cases hv
  | ceil =>
    obtain ⟨v, hv, hr⟩ := bind_ok hr
    rcases kind_eq h with ⟨_, _, k1, k2⟩ | ⟨_, _, k1, k2⟩
    · simp only [Unary.run, k2]; exact ⟨_, rfl⟩
    · rw [k1] at hv; cases hv
  | rint =>
    obtain ⟨v, hv, hr⟩ := bind_ok hr
    rcases kind_eq h with ⟨_, _, k1, k2⟩ | ⟨_, _, k1, k2⟩
    · simp only [Unary.run, k2]; exact ⟨_, rfl⟩
    · rw [k1] at hv; cases hv
  | variances =>
    obtain ⟨v, hv, hr⟩ := bind_ok hr
    obtain ⟨u, hu, hr⟩ := bind_ok hr
    rcases kind_eq h with ⟨_, _, k1, k2⟩ | ⟨_, _, k1, k2⟩
    · rw [k1] at hv; cases hv
    · simp only [Unary.run, k2]
      rcases exps_eq h with ⟨h1, h2⟩ | ⟨q, w, h1, h2, he⟩
      · rw [h2]; exact ⟨_, rfl⟩
      · rw [h1] at hu; rw [h2]
        simp only [MUnit.mul] at hu ⊢
        rw [fits_eq l.range (w := w.mul w) (by simp only [PreciseUnit.mul, he])] at hu
        split at hu
        · rename_i e; rw [if_pos e]; exact ⟨_, rfl⟩
        · cases hu
  | stddevs =>
    obtain ⟨v, hv, hr⟩ := bind_ok hr
    rcases kind_eq h with ⟨_, _, k1, k2⟩ | ⟨_, _, k1, k2⟩
    · rw [k1] at hv; cases hv
    · simp only [Unary.run, k2]; exact ⟨_, rfl⟩
  | toUnit t => exact convert_succeeds h t hr

/-- Whether one of these functions accepts a quantity does not depend on the unit in which it is given. -/
theorem C99_accepted (l : Lib n) (f : Unary n) (hf : f.AnyUnit = true) (a b : Qty n) (h : Same a b) :
    (∃ r, f.run l a = .ok r) ↔ ∃ r, f.run l b = .ok r :=
  ⟨fun ⟨_, hr⟩ => succeeds l f hf h hr, fun ⟨_, hr⟩ => succeeds l f hf (same_symm h) hr⟩

/-- Likewise for products and quotients. -/
theorem C99_accepted_binary (l : Lib n) (f : Binary) (hf : f = .mul ∨ f = .div) (a a' b b' : Qty n) (ha : Same a a') (hb : Same b b') :
    (∃ r, f.run l a b = .ok r) ↔ ∃ r, f.run l a' b' = .ok r := by
  have key : ∀ (a a' b b' : Qty n), Same a a' → Same b b' → (∃ r, f.run l a b = .ok r) → ∃ r, f.run l a' b' = .ok r := by
    rintro a a' b b' ha hb ⟨r, hr⟩
    rcases hf with rfl | rfl
    · obtain ⟨u, hu, rfl⟩ := map_ok hr
      simp only [Binary.run]
      rcases exps_eq ha with ⟨h1, h2⟩ | ⟨p, w, h1, h2, he⟩ <;> rcases exps_eq hb with ⟨k1, k2⟩ | ⟨q, z, k1, k2, hf⟩ <;> rw [h1, k1] at hu <;> rw [h2, k2]
      · exact ⟨_, rfl⟩
      · cases hu
      · cases hu
      · simp only [MUnit.mul] at hu ⊢
        rw [fits_eq l.range (w := w.mul z) (by simp only [PreciseUnit.mul, he, hf])] at hu
        split at hu
        · rename_i e; rw [if_pos e]; exact ⟨_, rfl⟩
        · cases hu
    · obtain ⟨u, hu, rfl⟩ := map_ok hr
      simp only [Binary.run]
      rcases exps_eq ha with ⟨h1, h2⟩ | ⟨p, w, h1, h2, he⟩ <;> rcases exps_eq hb with ⟨k1, k2⟩ | ⟨q, z, k1, k2, hf⟩ <;> rw [h1, k1] at hu <;> rw [h2, k2]
      · exact ⟨_, rfl⟩
      · cases hu
      · cases hu
      · simp only [MUnit.div] at hu ⊢
        rw [fits_eq l.range (w := w.div z) (by simp only [PreciseUnit.div, he, hf])] at hu
        split at hu
        · rename_i e; rw [if_pos e]; exact ⟨_, rfl⟩
        · cases hu
  exact ⟨key a a' b b' ha hb, key a' a b' b (same_symm ha) (same_symm hb)⟩

/-! ### Concrete cases -/

/-- Two base units: metre and radian. -/
private noncomputable def lib99 : Lib 2 where
  trig _ x := Real.exp x
  inv _ x := x
  special _ x := x
  atan2 y x := y / x
  rint x := (⌊x + 1 / 2⌋ : ℝ)
  rad := ⟨1, fun i => if i = 1 then 1 else 0⟩
  deg := ⟨31415926535 / 1800000000000, fun i => if i = 1 then 1 else 0⟩
  range := fun _ => (-4, 3)
  root x := if x = 1 then 1 else if x = 1 / 1000000 then 1 / 1000 else 0

private theorem lib99_ok : lib99.Ok := ⟨by simp [lib99], fun c y x hc => by simp only [lib99]; rw [mul_div_mul_right _ _ hc.ne']⟩

private def metre : PreciseUnit 2 := ⟨1, fun i => if i = 0 then 1 else 0⟩
private def millimetre : PreciseUnit 2 := ⟨1 / 1000, fun i => if i = 0 then 1 else 0⟩

/-- 1.5 m with a standard deviation of 0.1 m is 1500 mm with a standard deviation of 100 mm. -/
private theorem same99 : Same ⟨.pair ⟨1.5, 0.01⟩, some metre⟩ ⟨.pair ⟨1500, 10000⟩, some millimetre⟩ := by
  refine ⟨rfl, by simp [metre], by simp [millimetre], ?_⟩
  simp only [physical, metre, millimetre, Prod.mk.injEq, Option.some.injEq]
  push_cast
  constructor <;> norm_num

private theorem fits99 (u : PreciseUnit 2) (h : ∀ i, -4 ≤ u.exps i ∧ u.exps i ≤ 3) : lib99.range.fits u = true := by
  unfold ExpRange.fits
  rw [List.all_eq_true]
  intro i _
  simpa [lib99] using h i

private theorem pow99 (x : Num) (m : ℚ) : (Unary.pow 2).run lib99 ⟨x, some ⟨m, fun i => if i = 0 then 1 else 0⟩⟩ =
    .ok ⟨match x with | .plain v => .plain (v ^ (2 : ℤ)) | .pair x => .pair (x.powInt 2), some ⟨m ^ (2 : ℤ), fun i => (if i = 0 then 1 else 0) * 2⟩⟩ := by
  simp only [Unary.run, MUnit.pow]
  rw [if_pos (fits99 _ (show ∀ i : Fin 2, -4 ≤ (if i = 0 then (1 : Int) else 0) * MUnit.toInt 2 ∧ (if i = 0 then (1 : Int) else 0) * MUnit.toInt 2 ≤ 3 by decide))]
  rfl

/-- The square of 1.5 m is that of 1500 mm, including the uncertainty. -/
example : ∃ ra rb, (Unary.pow 2).run lib99 ⟨.pair ⟨1.5, 0.01⟩, some metre⟩ = .ok ra ∧ (Unary.pow 2).run lib99 ⟨.pair ⟨1500, 10000⟩, some millimetre⟩ = .ok rb ∧
    Same ra rb :=
  ⟨_, _, pow99 _ _, pow99 _ _, C99_unary_partial lib99 lib99_ok (.pow 2) _ _ _ _ same99 (by simp [Unary.Independent]) (by simp [Unary.Independent])
    (pow99 _ _) (pow99 _ _)⟩

/-- The square root of 4 m² and of 4000000 mm²; the multipliers of the units are squares. -/
example : (Unary.sqrt : Unary 2).Independent lib99 (some ⟨1 / 1000000, fun i => if i = 0 then 2 else 0⟩) := by
  intro p hp
  cases hp
  simp only [lib99]
  norm_num

private theorem mul99 (x y : Num) (m k : ℚ) (e : Fin 2 → Int) (he : ∀ i, -4 ≤ (if i = 0 then 1 else 0) + e i ∧ (if i = 0 then 1 else 0) + e i ≤ 3) :
    Binary.mul.run lib99 ⟨x, some ⟨m, fun i => if i = 0 then 1 else 0⟩⟩ ⟨y, some ⟨k, e⟩⟩ =
    .ok ⟨arith (· * ·) VV.mul VV.mulScalar VV.scalarMul x y, some ⟨m * k, fun i => (if i = 0 then 1 else 0) + e i⟩⟩ := by
  simp only [Binary.run, MUnit.mul]
  rw [if_pos (fits99 _ he)]
  rfl

/-- The product of a length and the square of a length, once in metres and once in millimetres. -/
example : ∃ r r', (Expr.bin .mul (.input 0) (.un (.pow 2) (.input 1))).eval lib99 (fun _ => ⟨.pair ⟨1.5, 0.01⟩, some metre⟩) = .ok r ∧
    (Expr.bin .mul (.input 0) (.un (.pow 2) (.input 1))).eval lib99 (fun _ => ⟨.pair ⟨1500, 10000⟩, some millimetre⟩) = .ok r' ∧ Same r r' := by
  obtain ⟨r, h1⟩ : ∃ r, (Expr.bin .mul (.input 0) (.un (.pow 2) (.input 1))).eval lib99 (fun _ => ⟨.pair ⟨1.5, 0.01⟩, some metre⟩) = .ok r := by
    simp only [Expr.eval, bind, Except.bind, metre, pow99]
    exact ⟨_, mul99 _ _ _ _ _ (by decide)⟩
  obtain ⟨r', h2⟩ : ∃ r, (Expr.bin .mul (.input 0) (.un (.pow 2) (.input 1))).eval lib99 (fun _ => ⟨.pair ⟨1500, 10000⟩, some millimetre⟩) = .ok r := by
    simp only [Expr.eval, bind, Except.bind, millimetre, pow99]
    exact ⟨_, mul99 _ _ _ _ _ (by decide)⟩
  exact ⟨r, r', h1, h2, C99_calculation_partial lib99 lib99_ok _ _ _ (fun _ => same99) (by simp [Expr.Independent, Unary.Independent, Binary.Independent])
    (by simp [Expr.Independent, Unary.Independent, Binary.Independent]) _ _ h1 h2⟩

/-- 1.5 m compared with itself, in metres and in millimetres: neither is less. -/
example : (Compare.less.run (⟨.pair ⟨1.5, 0.01⟩, some metre⟩ : Qty 2) ⟨.pair ⟨1.5, 0.01⟩, some metre⟩ = .ok ((1.5 : ℝ) < 1.5)) ∧
    (Compare.less.run (⟨.pair ⟨1500, 10000⟩, some millimetre⟩ : Qty 2) ⟨.pair ⟨1500, 10000⟩, some millimetre⟩ = .ok ((1500 : ℝ) < 1500)) ∧
    ((1.5 : ℝ) < 1.5 ↔ (1500 : ℝ) < 1500) :=
  ⟨by simp [Compare.run, Compare.holds, Num.value], by simp [Compare.run, Compare.holds, Num.value],
    C99_comparison .less _ _ _ _ same99 same99 _ _ (by simp [Compare.run, Compare.holds, Num.value]) (by simp [Compare.run, Compare.holds, Num.value])⟩

/-- `isclose` with a tolerance of 1.5 m or 1500 mm. -/
example : (|(1.5 : ℝ) - 1.5| ≤ 1.5) ↔ |(1500 : ℝ) - 1500| ≤ 1500 :=
  C99_isclose (n := 2) _ _ _ _ _ _ same99 same99 same99 _ _ (by simp [isclose, Num.value]) (by simp [isclose, Num.value])

private theorem exact_int (k : ℤ) (h : k ≤ 1000000) : ExactFactor k := by
  unfold ExactFactor
  dsimp only
  have : ¬((k : ℚ) > 1000000) := by push Not; exact_mod_cast h
  rw [if_neg this]
  exact .inl ⟨k, rfl⟩

/-- From metres to millimetres the factor is 1000. -/
example : ∃ r, convert ⟨.pair ⟨1.5, 0.01⟩, some metre⟩ (some millimetre) = .ok r ∧ Same ⟨.pair ⟨1.5, 0.01⟩, some metre⟩ r ∧ r.unit = some millimetre := by
  obtain ⟨r, hc⟩ : ∃ r, convert ⟨.pair ⟨1.5, 0.01⟩, some metre⟩ (some millimetre) = .ok r := by
    unfold convert
    rw [if_neg (by simp [metre, millimetre])]
    dsimp only
    rw [if_pos (show metre.exps = millimetre.exps from rfl)]
    exact ⟨_, rfl⟩
  refine ⟨r, hc, C99_to_unit_partial _ _ metre millimetre rfl (by simp [metre]) (by simp [millimetre]) ?_ hc⟩
  have := exact_int 1000 (by norm_num)
  simpa [metre, millimetre] using this

/-- The factor from degrees to radians is far from any integer. -/
private theorem exact_deg : ExactFactor (lib99.deg.mult / lib99.rad.mult) := by
  unfold ExactFactor
  simp only [lib99]
  norm_num
  right
  intro k
  rcases le_or_gt k 0 with h | h
  · have : (k : ℚ) ≤ 0 := by exact_mod_cast h
    rw [abs_of_pos (by linarith)]; linarith
  · have : (1 : ℚ) ≤ k := by exact_mod_cast h
    rw [abs_of_neg (by linarith)]; linarith

/-- The sine of 90 degrees is that of 90 · π / 180 radians. -/
example : (Unary.trig .sin).run lib99 ⟨.plain 90, some lib99.deg⟩ =
    .ok ⟨.plain (lib99.trig .sin (90 * (lib99.deg.mult / lib99.rad.mult))), MUnit.one⟩ :=
  C99_trig lib99 .sin 90 lib99.deg (by simp [lib99]) rfl exact_deg

/-- The sine of a length. -/
example : ∃ e, (Unary.trig .sin).run lib99 ⟨.plain 90, some metre⟩ = .error e :=
  C99_trig_fails lib99 .sin _ (.inl (by
    intro u hu
    cases hu
    intro h
    have := congrFun h 0
    simp [lib99, metre] at this))

/-- Variances of 1.5 m ± 0.1 m exist, hence also those of 1500 mm ± 100 mm; they can be multiplied. -/
example : ((∃ r, Unary.variances.run lib99 ⟨.pair ⟨1.5, 0.01⟩, some metre⟩ = .ok r) ↔ ∃ r, Unary.variances.run lib99 ⟨.pair ⟨1500, 10000⟩, some millimetre⟩ = .ok r) ∧
    ((∃ r, Binary.mul.run lib99 ⟨.pair ⟨1.5, 0.01⟩, some metre⟩ ⟨.pair ⟨1.5, 0.01⟩, some metre⟩ = .ok r) ↔
      ∃ r, Binary.mul.run lib99 ⟨.pair ⟨1500, 10000⟩, some millimetre⟩ ⟨.pair ⟨1500, 10000⟩, some millimetre⟩ = .ok r) :=
  ⟨C99_accepted lib99 .variances rfl _ _ same99, C99_accepted_binary lib99 .mul (.inl rfl) _ _ _ _ same99 same99⟩

/-- The factor from a week to a second (604800) and from a day to a minute (1440). -/
example : |scaleFactor 604800 - 604800| ≤ 1 / 1000000000000 * 604800 ∧ |scaleFactor 1440 - 1440| ≤ 1 / 1000000000000 * 1440 :=
  ⟨C99_factor_accuracy 604800 (by norm_num), C99_factor_accuracy 1440 (by norm_num)⟩

/-- Rounding keeps the unit but depends on it: 1.5 m are rounded to 1 m, 1500 mm are not changed. -/
theorem C99_wrong_for_floor (l : Lib 2) : ∃ (a b ra rb : Qty 2), Same a b ∧ Unary.floor.run l a = .ok ra ∧ Unary.floor.run l b = .ok rb ∧ ¬Same ra rb := by
  refine ⟨⟨.plain 1.5, some metre⟩, ⟨.plain 1500, some millimetre⟩, ⟨.plain 1, some metre⟩, ⟨.plain 1500, some millimetre⟩, ?_, ?_, ?_, ?_⟩
  · refine ⟨rfl, by simp [metre], by simp [millimetre], ?_⟩
    simp only [physical, metre, millimetre, Prod.mk.injEq, and_true]
    push_cast; norm_num
  · have : ⌊(1.5 : ℝ)⌋ = 1 := by rw [Int.floor_eq_iff]; norm_num
    simp [Unary.run, bind, Except.bind, Num.noVariance, this]
  · have : ⌊(1500 : ℝ)⌋ = 1500 := by rw [Int.floor_eq_iff]; norm_num
    simp [Unary.run, bind, Except.bind, Num.noVariance, this]
  · rintro ⟨-, -, -, h⟩
    simp only [physical, metre, millimetre, Prod.mk.injEq, and_true] at h
    push_cast at h
    norm_num at h

/-- Floor division accepts different units: the quotient of 1.5 m by 1 m is 1, that of 1500 mm by 1 m is 1.5 (as 1500 mm / m). -/
theorem C99_wrong_for_floor_divide : ∃ (l : Lib 2) (a a' b r r' : Qty 2), l.Ok ∧ Same a a' ∧ Same b b ∧ Binary.floorDivide.run l a b = .ok r ∧
    Binary.floorDivide.run l a' b = .ok r' ∧ ¬Same r r' := by
  refine ⟨lib99, ⟨.plain 1.5, some metre⟩, ⟨.plain 1500, some millimetre⟩, ⟨.plain 1, some metre⟩, ⟨.plain 1, some (metre.div metre)⟩,
    ⟨.plain 1500, some (millimetre.div metre)⟩, lib99_ok, ?_, ?_, ?_, ?_, ?_⟩
  · refine ⟨rfl, by simp [metre], by simp [millimetre], ?_⟩
    simp only [physical, metre, millimetre, Prod.mk.injEq, and_true]
    push_cast; norm_num
  · exact same_refl (fun u hu => by cases hu; simp [metre])
  · have : ⌊(1.5 : ℝ)⌋ = 1 := by rw [Int.floor_eq_iff]; norm_num
    have hf : lib99.range.fits (metre.div metre) = true := fits99 _ (by decide)
    simp [Binary.run, bind, Except.bind, plain2, Num.noVariance, this, MUnit.div, hf, floorDiv]
  · have : ⌊(1500 : ℝ)⌋ = 1500 := by rw [Int.floor_eq_iff]; norm_num
    have hf : lib99.range.fits (millimetre.div metre) = true := fits99 _ (by decide)
    simp [Binary.run, bind, Except.bind, plain2, Num.noVariance, this, MUnit.div, hf, floorDiv]
  · rintro ⟨-, -, -, h⟩
    simp only [physical, metre, millimetre, PreciseUnit.div, Prod.mk.injEq, and_true] at h
    push_cast at h
    norm_num at h

/-- A factor within a trillionth of an integer is replaced by the integer: 1 of a unit that is 3.0000000000001 m is converted to 3 m. -/
theorem C99_wrong_for_snapped_factor : ∃ (q r : Qty 2) (t : PreciseUnit 2), (∀ u, q.unit = some u → 0 < u.mult) ∧ 0 < t.mult ∧ convert q (some t) = .ok r ∧ ¬Same q r := by
  have hs : scaleFactor (3 + 1 / 10000000000000) = 3 := by
    have hr : ToUnit.stdRound (3 + 1 / 10000000000000) = 3 := by unfold ToUnit.stdRound; rw [Int.floor_eq_iff]; norm_num
    unfold scaleFactor
    dsimp only
    have h0 : ¬((3 + 1 / 10000000000000 : ℚ) > 1000000) := by norm_num
    simp only [h0, if_false, hr]
    rw [if_pos (by push_cast; rw [abs_of_pos (by norm_num), abs_of_pos (by norm_num)]; norm_num)]
    norm_num
  refine ⟨⟨.plain 1, some ⟨3 + 1 / 10000000000000, metre.exps⟩⟩, ⟨.plain 3, some metre⟩, metre, ?_, by simp [metre], ?_, ?_⟩
  · intro u hu; cases hu; norm_num
  · unfold convert
    rw [if_neg (by simp only [metre, Option.some.injEq, PreciseUnit.mk.injEq, and_true]; norm_num)]
    dsimp only
    rw [if_pos rfl]
    have : (3 + 1 / 10000000000000 : ℚ) / metre.mult = 3 + 1 / 10000000000000 := by simp [metre]
    simp only [Num.times, this, hs]
    norm_num
  · rintro ⟨-, -, -, h⟩
    simp only [physical, metre, Prod.mk.injEq, and_true] at h
    push_cast at h
    norm_num at h

private theorem inBase_mul (q : Qty n) : ∃ m : ℝ, (∀ u, q.unit = some u → m = u.mult) ∧ (q.unit = none → m = 1) ∧ q.inBase = q.num.value * m := by
  obtain ⟨x, u⟩ := q
  cases u with
  | none => exact ⟨1, by simp, by simp, by cases x <;> simp [Qty.inBase, Num.value]⟩
  | some u => exact ⟨u.mult, by simp, by simp, by cases x <;> simp [Qty.inBase, Num.value]⟩

/-- **C99**: what the operations compute, in terms of the quantities and not of the numbers that represent them: the value of the result in base units is
the sum, difference, product, ratio or mean of those of the operands. -/
theorem C99_values (l : Lib n) (a b r : Qty n) :
    (Binary.add.run l a b = .ok r → r.inBase = a.inBase + b.inBase) ∧
    (Binary.sub.run l a b = .ok r → r.inBase = a.inBase - b.inBase) ∧
    (Binary.mul.run l a b = .ok r → r.inBase = a.inBase * b.inBase) ∧
    (Binary.div.run l a b = .ok r → r.inBase = a.inBase / b.inBase) ∧
    (Binary.midpoint.run l a b = .ok r → r.inBase = (a.inBase + b.inBase) / 2) ∧
    (Unary.reciprocal.run l a = .ok r → r.inBase = 1 / a.inBase) ∧
    (Unary.neg.run l a = .ok r → r.inBase = -a.inBase) := by
  obtain ⟨x, ua⟩ := a
  obtain ⟨y, ub⟩ := b
  refine ⟨?_, ?_, ?_, ?_, ?_, ?_, ?_⟩
  · intro h
    obtain ⟨u, hu, rfl⟩ := map_ok h
    obtain ⟨h1, rfl⟩ := add_ok hu
    dsimp only at h1
    subst h1
    cases u <;> cases x <;> cases y <;> simp only [Qty.inBase, arith, VV.add, VV.addScalar, VV.scalarAdd] <;> ring
  · intro h
    obtain ⟨u, hu, rfl⟩ := map_ok h
    obtain ⟨h1, rfl⟩ := sub_ok hu
    dsimp only at h1
    subst h1
    cases u <;> cases x <;> cases y <;> simp only [Qty.inBase, arith, VV.sub, VV.subScalar, VV.scalarSub] <;> ring
  · intro h
    obtain ⟨u, hu, rfl⟩ := map_ok h
    cases ua <;> cases ub <;> simp only [MUnit.mul] at hu
    · cases hu
      cases x <;> cases y <;> simp only [Qty.inBase, arith, VV.mul, VV.mulScalar, VV.scalarMul]
    · cases hu
    · cases hu
    · split at hu
      · cases hu
        cases x <;> cases y <;> simp only [Qty.inBase, arith, VV.mul, VV.mulScalar, VV.scalarMul, PreciseUnit.mul] <;> push_cast <;> ring
      · cases hu
  · intro h
    obtain ⟨u, hu, rfl⟩ := map_ok h
    cases ua <;> cases ub <;> simp only [MUnit.div] at hu
    · cases hu
      cases x <;> cases y <;> simp only [Qty.inBase, arith, VV.div, VV.divScalar, VV.scalarDiv]
    · cases hu
    · cases hu
    · split at hu
      · cases hu
        cases x <;> cases y <;> simp only [Qty.inBase, arith, VV.div, VV.divScalar, VV.scalarDiv, PreciseUnit.div] <;> push_cast <;>
          rw [div_mul_div_comm]
      · cases hu
  · intro h
    obtain ⟨z, hz, h⟩ := bind_ok h
    obtain ⟨u, hu, h⟩ := bind_ok h
    cases h
    obtain ⟨v, w, rfl, rfl, rfl⟩ := plain2_ok hz
    obtain ⟨h1, rfl⟩ := add_ok hu
    dsimp only at h1
    subst h1
    cases u <;> simp only [Qty.inBase] <;> ring
  · intro h
    obtain ⟨u, hu, rfl⟩ := map_ok h
    cases ua <;> simp only [MUnit.div, MUnit.one] at hu
    · cases hu
    · split at hu
      · cases hu
        cases x <;> simp only [Qty.inBase, VV.scalarDiv, PreciseUnit.div] <;> push_cast <;> rw [div_mul_div_comm, one_mul]
      · cases hu
  · intro h
    cases h
    cases ua <;> cases x <;> simp only [Qty.inBase, VV.neg] <;> ring

example : ∃ r, Binary.add.run lib99 (⟨.pair ⟨1.5, 0.01⟩, some millimetre⟩ : Qty 2) ⟨.plain 2, some millimetre⟩ = .ok r ∧
    r.inBase = (1.5 * ((1 / 1000 : ℚ) : ℝ)) + 2 * ((1 / 1000 : ℚ) : ℝ) := by
  obtain ⟨r, hr⟩ : ∃ r, Binary.add.run lib99 (⟨.pair ⟨1.5, 0.01⟩, some millimetre⟩ : Qty 2) ⟨.plain 2, some millimetre⟩ = .ok r :=
    ⟨_, by simp only [Binary.run, MUnit.add, if_true]; rfl⟩
  exact ⟨r, hr, (C99_values lib99 _ _ r).1 hr⟩

/-- **C99**: the remainder has the sign of the divisor, is smaller than it and differs from the dividend by a multiple of the divisor, all in terms of the
quantities. -/
theorem C99_remainder (l : Lib n) (a b r : Qty n) (hm : ∀ u, b.unit = some u → 0 < u.mult) (h : Binary.mod.run l a b = .ok r) :
    (∃ k : ℤ, r.inBase = a.inBase - k * b.inBase) ∧ (0 < b.inBase → 0 ≤ r.inBase ∧ r.inBase < b.inBase) := by
  obtain ⟨x, ua⟩ := a
  obtain ⟨y, ub⟩ := b
  obtain ⟨z, hz, h⟩ := bind_ok h
  obtain ⟨u, hu, h⟩ := bind_ok h
  cases h
  obtain ⟨v, w, h1, h2, rfl⟩ := plain2_ok hz
  dsimp only at h1 h2
  subst h1 h2
  obtain ⟨h1, rfl⟩ := mod_ok hu
  dsimp only at h1 hm
  subst h1
  have key : ∀ m : ℝ, 0 < m → (∃ k : ℤ, remainder v w * m = v * m - k * (w * m)) ∧ (0 < w * m → 0 ≤ remainder v w * m ∧ remainder v w * m < w * m) := by
    intro m hm
    refine ⟨⟨⌊v / w⌋, by simp only [remainder, floorDiv]; ring⟩, fun hw => ?_⟩
    have hw' : 0 < w := pos_of_mul_pos_left hw hm.le
    have h1 := Int.floor_le (v / w)
    have h2 := Int.lt_floor_add_one (v / w)
    rw [le_div_iff₀ hw'] at h1
    rw [div_lt_iff₀ hw'] at h2
    have h3 : 0 ≤ remainder v w := by simp only [remainder, floorDiv]; linarith
    have h4 : remainder v w < w := by simp only [remainder, floorDiv]; linarith
    exact ⟨mul_nonneg h3 hm.le, mul_lt_mul_of_pos_right h4 hm⟩
  cases u with
  | none => simpa [Qty.inBase] using key 1 one_pos
  | some u => exact key u.mult (by exact_mod_cast hm u rfl)

example : ∃ r, Binary.mod.run lib99 (⟨.plain 7, some millimetre⟩ : Qty 2) ⟨.plain 2, some millimetre⟩ = .ok r ∧ 0 ≤ r.inBase ∧
    r.inBase < 2 * ((1 / 1000 : ℚ) : ℝ) := by
  obtain ⟨r, hr⟩ : ∃ r, Binary.mod.run lib99 (⟨.plain 7, some millimetre⟩ : Qty 2) ⟨.plain 2, some millimetre⟩ = .ok r :=
    ⟨_, by simp only [Binary.run, MUnit.mod, if_true]; rfl⟩
  exact ⟨r, hr, (C99_remainder lib99 _ _ r (by intro u hu; cases hu; simp [millimetre]) hr).2 (by simp [Qty.inBase, millimetre])⟩

/-- **C99**: a comparison compares the quantities. -/
theorem C99_compares (c : Compare) (a b : Qty n) (p : Prop) (hm : ∀ u, a.unit = some u → 0 < u.mult) (h : c.run a b = .ok p) :
    p ↔ c.meaning a.inBase b.inBase := by
  unfold Compare.run at h
  split at h
  · rename_i hu
    cases h
    obtain ⟨m, h1, h2, h3⟩ := inBase_mul a
    obtain ⟨m', h1', h2', h3'⟩ := inBase_mul b
    have e : m' = m := by
      cases hb : b.unit with
      | none => rw [h2' hb, h2 (hu.trans hb)]
      | some u => rw [h1' u hb, h1 u (hu.trans hb)]
    have hpos : 0 < m := by
      cases ha : a.unit with
      | none => rw [h2 ha]; exact one_pos
      | some u => rw [h1 u ha]; exact_mod_cast hm u ha
    rw [h3, h3', e]
    cases c <;> simp only [Compare.holds, Compare.meaning]
    · exact (mul_lt_mul_iff_left₀ hpos).symm
    · exact (mul_lt_mul_iff_left₀ hpos).symm
    · exact (mul_le_mul_iff_left₀ hpos).symm
    · exact (mul_le_mul_iff_left₀ hpos).symm
    · exact (mul_left_inj' hpos.ne').symm
    · exact not_congr (mul_left_inj' hpos.ne').symm
  · cases h

example : (2 : ℝ) ≤ 2 ↔ Compare.lessEqual.meaning (2 * ((1 / 1000 : ℚ) : ℝ)) (2 * ((1 / 1000 : ℚ) : ℝ)) :=
  C99_compares .lessEqual (⟨.plain 2, some millimetre⟩ : Qty 2) ⟨.plain 2, some millimetre⟩ _ (by intro u hu; cases hu; simp [millimetre])
    (by simp [Compare.run, Compare.holds, Num.value])

end Scipp.Props
