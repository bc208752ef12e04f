import Verif.Spec.UnitFunctions
import Mathlib.Tactic.FieldSimp
import Mathlib.Tactic.Ring
import Mathlib.Tactic.Linarith
import Mathlib.Data.Rat.Cast.Order
namespace Scipp.UnitFn
variable {n : Nat}

/-- Element with the value multiplied by `c` and the variance by the square of `c`. -/
noncomputable def rescale (c : ℝ) : Num → Num
  | .plain v => .plain (v * c)
  | .pair x => .pair ⟨x.value * c, x.variance * (c * c)⟩

theorem same_none (x : Num) : Same (n := n) ⟨x, none⟩ ⟨x, none⟩ := rfl

theorem same_some {x y : Num} {u w : PreciseUnit n} (he : u.exps = w.exps) (hu : 0 < u.mult) (hw : 0 < w.mult)
    (h : physical x u.mult = physical y w.mult) : Same ⟨x, some u⟩ ⟨y, some w⟩ := ⟨he, hu, hw, h⟩

/-- A quantity is the same as another one iff it is a number with unit `None`, or the other one with a different multiplier. -/
theorem same_cases {a b : Qty n} (h : Same a b) :
    (∃ x, a = ⟨x, none⟩ ∧ b = ⟨x, none⟩) ∨
    ∃ (x : Num) (m m' : ℚ) (e : Fin n → Int) (c : ℝ), 0 < m ∧ 0 < m' ∧ 0 < c ∧ (m : ℝ) = c * m' ∧ a = ⟨x, some ⟨m, e⟩⟩ ∧ b = ⟨rescale c x, some ⟨m', e⟩⟩ := by
  obtain ⟨x, u⟩ := a
  obtain ⟨y, w⟩ := b
  cases u with
  | none => cases w with
    | none => left; exact ⟨x, rfl, by have : x = y := h; rw [this]⟩
    | some w => exact absurd h (by simp [Same])
  | some u => cases w with
    | none => exact absurd h (by simp [Same])
    | some w =>
      right
      obtain ⟨m, e⟩ := u
      obtain ⟨m', e'⟩ := w
      obtain ⟨he, hu, hw, hp⟩ := h
      dsimp only at he hu hw hp
      subst he
      have hw' : (0 : ℝ) < m' := by exact_mod_cast hw
      have hu' : (0 : ℝ) < m := by exact_mod_cast hu
      refine ⟨x, m, m', e, m / m', hu, hw, by positivity, by field_simp, rfl, ?_⟩
      congr 1
      cases x with
      | plain v => cases y with
        | plain v' =>
          simp only [physical, Prod.mk.injEq, and_true] at hp
          simp only [rescale, Num.plain.injEq]
          field_simp; linarith
        | pair y => simp [physical] at hp
      | pair x => cases y with
        | plain v' => simp [physical] at hp
        | pair y =>
          obtain ⟨y, t⟩ := y
          simp only [physical, Prod.mk.injEq, Option.some.injEq] at hp
          simp only [rescale, Num.pair.injEq, VV.mk.injEq]
          obtain ⟨h1, h2⟩ := hp
          constructor
          · field_simp; linarith
          · field_simp; linarith

theorem scaleFactor_exact {s : ℚ} (h : ExactFactor s) : scaleFactor s = s := by
  unfold ExactFactor at h
  unfold scaleFactor
  dsimp only at h ⊢
  have e : s * (1 / 1000000) = s / 1000000 := by ring
  rw [e]
  generalize hb : (if s > 1000000 then s / 1000000 else s) = b at h ⊢
  rcases h with ⟨k, hk⟩ | h
  · have hr : ToUnit.stdRound b = k := by
      rw [hk]; unfold ToUnit.stdRound
      rw [Int.floor_eq_iff]; constructor <;> linarith
    have hs : (if s > 1000000 then (1000000 : ℚ) else 1) * (ToUnit.stdRound b : ℚ) = s := by
      rw [hr, ← hk, ← hb]
      split
      · ring
      · ring
    rw [hs]; split <;> rfl
  · rw [if_neg (not_lt.2 (h _))]

end Scipp.UnitFn
namespace Scipp.UnitFn
variable {n : Nat}

theorem map_ok {ε α β : Type} {x : Except ε α} {f : α → β} {r : β} (h : x.map f = .ok r) : ∃ y, x = .ok y ∧ r = f y := by
  cases x with
  | error e => cases h
  | ok y => exact ⟨y, rfl, by cases h; rfl⟩

theorem bind_ok {ε α β : Type} {x : Except ε α} {f : α → Except ε β} {r : β} (h : (x >>= f) = .ok r) : ∃ y, x = .ok y ∧ f y = .ok r := by
  cases x with
  | error e => cases h
  | ok y => exact ⟨y, rfl, h⟩

theorem noVariance_ok {x : Num} {v : ℝ} (h : x.noVariance = .ok v) : x = .plain v := by
  cases x with
  | plain w => cases h; rfl
  | pair y => cases h

theorem withVariance_ok {x : Num} {v : VV} (h : x.withVariance = .ok v) : x = .pair v := by
  cases x with
  | plain w => cases h
  | pair y => cases h; rfl

theorem dimensionless_ok {u w : MUnit n} (h : dimensionless u = .ok w) : u = MUnit.one ∧ w = MUnit.one := by
  unfold dimensionless at h
  split at h
  · rename_i e; cases h; exact ⟨e, rfl⟩
  · cases h

/-- Numbers without unit of measurement are the same quantity only if they are equal. -/
theorem same_one {a b : Qty n} (h : Same a b) (ha : a.unit = MUnit.one) (hb : b.unit = MUnit.one) : a.num = b.num := by
  rcases same_cases h with ⟨x, rfl, rfl⟩ | ⟨x, m, m', e, c, hm, hm', hc, hmm, rfl, rfl⟩
  · rfl
  · simp only [MUnit.one, Option.some.injEq, PreciseUnit.mk.injEq] at ha hb
    rw [ha.1, hb.1] at hmm
    have : c = 1 := by simpa using hmm.symm
    subst this
    cases x <;> simp [rescale]

theorem same_refl_one (x : Num) : Same (n := n) ⟨x, MUnit.one⟩ ⟨x, MUnit.one⟩ :=
  same_some rfl (by norm_num) (by norm_num) rfl

theorem same_refl {q : Qty n} (h : ∀ u, q.unit = some u → 0 < u.mult) : Same q q := by
  obtain ⟨x, u⟩ := q
  cases u with
  | none => rfl
  | some u => exact same_some rfl (h u rfl) (h u rfl) rfl

theorem same_symm {a b : Qty n} (h : Same a b) : Same b a := by
  obtain ⟨x, u⟩ := a
  obtain ⟨y, w⟩ := b
  cases u <;> cases w
  · exact Eq.symm h
  · exact h.elim
  · exact h.elim
  · exact ⟨h.1.symm, h.2.2.1, h.2.1, h.2.2.2.symm⟩

theorem same_trans {a b c : Qty n} (h : Same a b) (h' : Same b c) : Same a c := by
  obtain ⟨x, u⟩ := a
  obtain ⟨y, w⟩ := b
  obtain ⟨z, t⟩ := c
  cases u <;> cases w <;> cases t
  · exact Eq.trans h h'
  · exact h'.elim
  · exact h.elim
  · exact h.elim
  · exact h.elim
  · exact h.elim
  · exact h'.elim
  · exact ⟨h.1.trans h'.1, h.2.1, h'.2.2.1, h.2.2.2.trans h'.2.2.2⟩

/-- Converting a quantity to another unit yields the same quantity. -/
theorem convert_same {q r : Qty n} {t : MUnit n} (hq : ∀ u, q.unit = some u → 0 < u.mult)
    (ht : ∀ p w, q.unit = some p → t = some w → 0 < w.mult ∧ ExactFactor (p.mult / w.mult)) (h : convert q t = .ok r) : Same q r ∧ r.unit = t := by
  unfold convert at h
  split at h
  · rename_i e; cases h; exact ⟨same_refl hq, e.symm⟩
  · obtain ⟨x, u⟩ := q
    dsimp only at h hq ht
    cases u with
    | none => cases h
    | some u => cases t with
      | none => cases h
      | some t =>
        dsimp only at h
        split at h
        · rename_i he
          cases h
          refine ⟨?_, rfl⟩
          obtain ⟨h0, hx⟩ := ht u t rfl rfl
          rw [scaleFactor_exact hx]
          have h0' : (0 : ℝ) < t.mult := by exact_mod_cast h0
          refine same_some he (hq u rfl) h0 ?_
          cases x with
          | plain v => simp only [physical, Num.times, Prod.mk.injEq, and_true]; push_cast; field_simp
          | pair x =>
            simp only [physical, Num.times, VV.mulScalar, Prod.mk.injEq, Option.some.injEq]; push_cast
            constructor <;> field_simp
        · cases h

theorem same_unit_pos {a b : Qty n} (h : Same a b) : ∀ u, a.unit = some u → 0 < u.mult := by
  rcases same_cases h with ⟨x, rfl, rfl⟩ | ⟨x, m, m', e, c, hm, hm', hc, hmm, rfl, rfl⟩
  · intro u hu; cases hu
  · intro u hu; cases hu; exact hm

theorem unary_same (l : Lib n) (hl : l.Ok) (f : Unary n) {a b ra rb : Qty n} (h : Same a b) (ha : f.Independent l a.unit) (hb : f.Independent l b.unit)
    (hra : f.run l a = .ok ra) (hrb : f.run l b = .ok rb) : Same ra rb := by
  cases f with
  | neg =>
    cases hra; cases hrb
    rcases same_cases h with ⟨x, rfl, rfl⟩ | ⟨x, m, m', e, c, hm, hm', hc, hmm, rfl, rfl⟩
    · exact same_none _
    · refine same_some rfl hm hm' ?_
      dsimp only
      rw [hmm]
      cases x <;> simp only [physical, rescale, VV.neg, Prod.mk.injEq, Option.some.injEq, and_true] <;> (try constructor) <;> ring
  | abs =>
    cases hra; cases hrb
    rcases same_cases h with ⟨x, rfl, rfl⟩ | ⟨x, m, m', e, c, hm, hm', hc, hmm, rfl, rfl⟩
    · exact same_none _
    · refine same_some rfl hm hm' ?_
      dsimp only
      rw [hmm]
      cases x <;> simp only [physical, rescale, VV.abs, Prod.mk.injEq, Option.some.injEq, and_true, abs_mul, abs_of_pos hc] <;> (try constructor) <;> ring
  | sqrt =>
    obtain ⟨u, hu, rfl⟩ := map_ok hra
    obtain ⟨w, hw, rfl⟩ := map_ok hrb
    rcases same_cases h with ⟨x, rfl, rfl⟩ | ⟨x, m, m', e, c, hm, hm', hc, hmm, rfl, rfl⟩
    · cases hu; cases hw; exact same_none _
    · simp only [MUnit.sqrt] at hu hw
      split at hu
      · rename_i he
        rw [if_pos he] at hw
        cases hu; cases hw
        obtain ⟨a1, a2⟩ := ha _ rfl
        obtain ⟨b1, b2⟩ := hb _ rfl
        dsimp only at a1 a2 b1 b2
        refine same_some rfl a1 b1 ?_
        dsimp only
        have a1' : (0 : ℝ) < l.root m := by exact_mod_cast a1
        have b1' : (0 : ℝ) < l.root m' := by exact_mod_cast b1
        have a2' : (l.root m : ℝ) * l.root m = m := by exact_mod_cast a2
        have b2' : (l.root m' : ℝ) * l.root m' = m' := by exact_mod_cast b2
        have hroot : (l.root m : ℝ) = Real.sqrt c * l.root m' := by
          have e1 : (l.root m : ℝ) = Real.sqrt m := by rw [← a2', Real.sqrt_mul_self a1'.le]
          have e2 : (l.root m' : ℝ) = Real.sqrt m' := by rw [← b2', Real.sqrt_mul_self b1'.le]
          rw [e1, e2, hmm, Real.sqrt_mul hc.le]
        have hc2 : Real.sqrt c * Real.sqrt c = c := Real.mul_self_sqrt hc.le
        have hc3 : 0 < Real.sqrt c := Real.sqrt_pos.2 hc
        cases x with
        | plain v =>
          simp only [physical, rescale, Prod.mk.injEq, and_true]
          rw [Real.sqrt_mul' _ hc.le, hroot]; ring
        | pair x =>
          simp only [physical, rescale, VV.sqrt, Prod.mk.injEq, Option.some.injEq]
          refine ⟨by rw [Real.sqrt_mul' _ hc.le, hroot]; ring, ?_⟩
          rw [a2', b2', hmm]
          by_cases hv : x.value = 0
          · simp [hv]
          · field_simp
      · cases hu
  | reciprocal =>
    obtain ⟨u, hu, rfl⟩ := map_ok hra
    obtain ⟨w, hw, rfl⟩ := map_ok hrb
    rcases same_cases h with ⟨x, rfl, rfl⟩ | ⟨x, m, m', e, c, hm, hm', hc, hmm, rfl, rfl⟩
    · simp [MUnit.div, MUnit.one] at hu
    · simp only [MUnit.div, MUnit.one] at hu hw
      split at hu
      · split at hw
        · cases hu; cases hw
          have hmr : (0 : ℝ) < m := by exact_mod_cast hm
          have hmr' : (0 : ℝ) < m' := by exact_mod_cast hm'
          refine same_some rfl (by simp only [PreciseUnit.div]; positivity) (by simp only [PreciseUnit.div]; positivity) ?_
          simp only [PreciseUnit.div]
          push_cast
          rw [hmm]
          cases x with
          | plain v =>
            simp only [physical, rescale, Prod.mk.injEq, and_true]
            by_cases hv : v = 0
            · simp [hv]
            · field_simp
          | pair x =>
            simp only [physical, rescale, VV.scalarDiv, Prod.mk.injEq, Option.some.injEq]
            by_cases hv : x.value = 0
            · simp [hv]
            · constructor <;> field_simp
        · cases hw
      · cases hu
  | pow p =>
    obtain ⟨u, hu, rfl⟩ := map_ok hra
    obtain ⟨w, hw, rfl⟩ := map_ok hrb
    rcases same_cases h with ⟨x, rfl, rfl⟩ | ⟨x, m, m', e, c, hm, hm', hc, hmm, rfl, rfl⟩
    · cases hu; cases hw; exact same_none _
    · have hp : MUnit.toInt p = p := by
        obtain ⟨h1, h2⟩ := ha
        unfold MUnit.toInt; omega
      simp only [MUnit.pow, hp] at hu hw
      split at hu
      · split at hw
        · cases hu; cases hw
          have hmr' : (0 : ℝ) < m' := by exact_mod_cast hm'
          refine same_some rfl (by simp only [PreciseUnit.pow]; positivity) (by simp only [PreciseUnit.pow]; positivity) ?_
          simp only [PreciseUnit.pow]
          push_cast
          rw [hmm]
          have hcp : c ^ p = c ^ (p - 1) * c := by rw [← zpow_add_one₀ hc.ne']; congr 1; omega
          have hmp : (m' : ℝ) ^ p = (m' : ℝ) ^ (p - 1) * m' := by rw [← zpow_add_one₀ hmr'.ne']; congr 1; omega
          cases x with
          | plain v =>
            simp only [physical, rescale, Prod.mk.injEq, and_true, mul_zpow]; ring
          | pair x =>
            simp only [physical, rescale, VV.powInt, Prod.mk.injEq, Option.some.injEq, mul_zpow]
            constructor
            · by_cases hv : x.value = 0
              · simp only [hv, zero_mul, true_and]
                split
                · rename_i h0; subst h0; simp
                · split <;> simp
              · have : x.value * c ≠ 0 := mul_ne_zero hv hc.ne'
                simp only [hv, this, false_and, if_false]
                rw [hcp]; ring
            · rw [hcp]; ring
        · cases hw
      · cases hu
  | exp =>
    obtain ⟨u, hu, rfl⟩ := map_ok hra
    obtain ⟨w, hw, rfl⟩ := map_ok hrb
    obtain ⟨hu', rfl⟩ := dimensionless_ok hu
    obtain ⟨hw', rfl⟩ := dimensionless_ok hw
    rw [same_one h hu' hw']; exact same_refl_one _
  | log =>
    obtain ⟨u, hu, rfl⟩ := map_ok hra
    obtain ⟨w, hw, rfl⟩ := map_ok hrb
    obtain ⟨hu', rfl⟩ := dimensionless_ok hu
    obtain ⟨hw', rfl⟩ := dimensionless_ok hw
    rw [same_one h hu' hw']; exact same_refl_one _
  | log10 =>
    obtain ⟨u, hu, rfl⟩ := map_ok hra
    obtain ⟨w, hw, rfl⟩ := map_ok hrb
    obtain ⟨hu', rfl⟩ := dimensionless_ok hu
    obtain ⟨hw', rfl⟩ := dimensionless_ok hw
    rw [same_one h hu' hw']; exact same_refl_one _
  | special f =>
    obtain ⟨v, hv, hra⟩ := bind_ok hra
    obtain ⟨u, hu, hra⟩ := bind_ok hra
    obtain ⟨v', hv', hrb⟩ := bind_ok hrb
    obtain ⟨w, hw, hrb⟩ := bind_ok hrb
    cases hra; cases hrb
    obtain ⟨hu', rfl⟩ := dimensionless_ok hu
    obtain ⟨hw', rfl⟩ := dimensionless_ok hw
    have := same_one h hu' hw'
    rw [noVariance_ok hv, noVariance_ok hv'] at this
    cases this
    exact same_refl_one _
  | trig f =>
    obtain ⟨p, hp, hra⟩ := bind_ok hra
    obtain ⟨v, hv, hra⟩ := bind_ok hra
    obtain ⟨u, hu, hra⟩ := bind_ok hra
    obtain ⟨p', hp', hrb⟩ := bind_ok hrb
    obtain ⟨v', hv', hrb⟩ := bind_ok hrb
    obtain ⟨w, hw, hrb⟩ := bind_ok hrb
    cases hra; cases hrb
    obtain ⟨s1, t1⟩ := convert_same (same_unit_pos h) (fun p w h1 h2 => by cases h2; exact ⟨hl.rad, ha p h1⟩) hp
    obtain ⟨s2, t2⟩ := convert_same (same_unit_pos (same_symm h)) (fun p w h1 h2 => by cases h2; exact ⟨hl.rad, hb p h1⟩) hp'
    have hs : Same p p' := same_trans (same_trans (same_symm s1) h) s2
    obtain ⟨y, py⟩ := p
    obtain ⟨y', py'⟩ := p'
    dsimp only at t1 t2 hv hv'
    subst t1; subst t2
    have e1 : y = .plain v := noVariance_ok hv
    have e2 : y' = .plain v' := noVariance_ok hv'
    subst e1; subst e2
    have h4 := hs.2.2.2
    have hr : (0 : ℝ) < l.rad.mult := by exact_mod_cast hl.rad
    simp only [physical, Prod.mk.injEq, and_true, mul_eq_mul_right_iff, hr.ne', or_false] at h4
    subst h4
    simp only [trigonometric, true_or, if_true] at hu hw
    cases hu; cases hw
    exact same_refl_one _
  | inv f =>
    obtain ⟨v, hv, hra⟩ := bind_ok hra
    obtain ⟨u, hu, hra⟩ := bind_ok hra
    obtain ⟨v', hv', hrb⟩ := bind_ok hrb
    obtain ⟨w, hw, hrb⟩ := bind_ok hrb
    cases hra; cases hrb
    unfold inverseTrigonometric at hu hw
    split at hu
    · rename_i h1
      split at hw
      · rename_i h2
        cases hu; cases hw
        have := same_one h h1 h2
        rw [noVariance_ok hv, noVariance_ok hv'] at this
        cases this
        exact same_some rfl hl.rad hl.rad rfl
      · cases hw
    · cases hu
  | floor => exact ha.elim
  | ceil => exact ha.elim
  | rint => exact ha.elim
  | values =>
    cases hra; cases hrb
    rcases same_cases h with ⟨x, rfl, rfl⟩ | ⟨x, m, m', e, c, hm, hm', hc, hmm, rfl, rfl⟩
    · exact same_none _
    · refine same_some rfl hm hm' ?_
      dsimp only
      rw [hmm]
      cases x <;> simp only [physical, rescale, Num.value, Prod.mk.injEq, and_true] <;> ring
  | variances =>
    obtain ⟨v, hv, hra⟩ := bind_ok hra
    obtain ⟨u, hu, hra⟩ := bind_ok hra
    obtain ⟨v', hv', hrb⟩ := bind_ok hrb
    obtain ⟨w, hw, hrb⟩ := bind_ok hrb
    cases hra; cases hrb
    rcases same_cases h with ⟨x, rfl, rfl⟩ | ⟨x, m, m', e, c, hm, hm', hc, hmm, rfl, rfl⟩
    · cases hu; cases hw
      dsimp only at hv hv'
      rw [hv] at hv'; cases hv'
      exact same_none _
    · simp only [MUnit.mul] at hu hw
      split at hu
      · split at hw
        · cases hu; cases hw
          refine same_some rfl (by simp only [PreciseUnit.mul]; positivity) (by simp only [PreciseUnit.mul]; positivity) ?_
          simp only [PreciseUnit.mul]
          push_cast
          rw [hmm]
          dsimp only at hv hv'
          have e1 := withVariance_ok hv
          subst e1
          cases hv'
          simp only [physical, Prod.mk.injEq, and_true]; ring
        · cases hw
      · cases hu
  | stddevs =>
    obtain ⟨v, hv, hra⟩ := bind_ok hra
    obtain ⟨v', hv', hrb⟩ := bind_ok hrb
    cases hra; cases hrb
    rcases same_cases h with ⟨x, rfl, rfl⟩ | ⟨x, m, m', e, c, hm, hm', hc, hmm, rfl, rfl⟩
    · dsimp only at hv hv'
      rw [hv] at hv'; cases hv'
      exact same_none _
    · refine same_some rfl hm hm' ?_
      dsimp only at hv hv' ⊢
      rw [hmm]
      have e1 := withVariance_ok hv
      subst e1
      cases hv'
      simp only [physical, Prod.mk.injEq, and_true]
      rw [Real.sqrt_mul' _ (mul_self_nonneg c), Real.sqrt_mul_self hc.le]; ring
  | toUnit t =>
    obtain ⟨s1, -⟩ := convert_same (same_unit_pos h) (fun p w h1 h2 => ha p w h1 h2) hra
    obtain ⟨s2, -⟩ := convert_same (same_unit_pos (same_symm h)) (fun p w h1 h2 => hb p w h1 h2) hrb
    exact same_trans (same_trans (same_symm s1) h) s2

end Scipp.UnitFn

namespace Scipp.UnitFn
variable {n : Nat}

theorem plain2_ok {f : ℝ → ℝ → ℝ} {a b x : Num} (h : plain2 f a b = .ok x) : ∃ v w, a = .plain v ∧ b = .plain w ∧ x = .plain (f v w) := by
  obtain ⟨v, hv, h⟩ := bind_ok h
  obtain ⟨w, hw, h⟩ := bind_ok h
  cases h
  exact ⟨v, w, noVariance_ok hv, noVariance_ok hw, rfl⟩

/-- Quantities with equal units that are given in other units, equal again: the numbers change by the same factor. -/
theorem same_equal_units {a a' b b' : Qty n} (ha : Same a a') (hb : Same b b') (hu : a.unit = b.unit) (hu' : a'.unit = b'.unit) :
    (∃ x y, a = ⟨x, none⟩ ∧ a' = ⟨x, none⟩ ∧ b = ⟨y, none⟩ ∧ b' = ⟨y, none⟩) ∨
    ∃ (x y : Num) (m m' : ℚ) (e : Fin n → Int) (c : ℝ), 0 < m ∧ 0 < m' ∧ 0 < c ∧ (m : ℝ) = c * m' ∧ a = ⟨x, some ⟨m, e⟩⟩ ∧
      a' = ⟨rescale c x, some ⟨m', e⟩⟩ ∧ b = ⟨y, some ⟨m, e⟩⟩ ∧ b' = ⟨rescale c y, some ⟨m', e⟩⟩ := by
  rcases same_cases ha with ⟨x, rfl, rfl⟩ | ⟨x, m, m', e, c, hm, hm', hc, hmm, rfl, rfl⟩
  · rcases same_cases hb with ⟨y, rfl, rfl⟩ | ⟨y, k, k', e', c', hk, hk', hc', hkk, rfl, rfl⟩
    · exact .inl ⟨x, y, rfl, rfl, rfl, rfl⟩
    · cases hu
  · rcases same_cases hb with ⟨y, rfl, rfl⟩ | ⟨y, k, k', e', c', hk, hk', hc', hkk, rfl, rfl⟩
    · cases hu
    · right
      dsimp only at hu hu'
      cases hu; cases hu'
      have h0 : (m' : ℝ) ≠ 0 := by exact_mod_cast hm'.ne'
      have : c' = c := by
        have := hkk.symm.trans hmm
        exact mul_right_cancel₀ h0 this
      subst this
      exact ⟨x, y, m, m', e, c', hm, hm', hc', hmm, rfl, rfl, rfl, rfl⟩

theorem floorDiv_scale (x y : ℝ) {c : ℝ} (hc : 0 < c) : floorDiv (x * c) (y * c) = floorDiv x y := by
  unfold floorDiv; rw [mul_div_mul_right _ _ hc.ne']

theorem rescale_plain {c : ℝ} {x : Num} {v : ℝ} (h : rescale c x = .plain v) : ∃ w, x = .plain w ∧ v = w * c := by
  cases x with
  | plain w => exact ⟨w, rfl, by cases h; rfl⟩
  | pair x => cases h

theorem add_ok {u w t : MUnit n} (h : MUnit.add u w = .ok t) : u = w ∧ t = u := by
  unfold MUnit.add at h
  split at h
  · rename_i e; cases h; exact ⟨e, rfl⟩
  · cases h

theorem sub_ok {u w t : MUnit n} (h : MUnit.sub u w = .ok t) : u = w ∧ t = u := by
  unfold MUnit.sub at h
  split at h
  · rename_i e; cases h; exact ⟨e, rfl⟩
  · cases h

theorem mod_ok {u w t : MUnit n} (h : MUnit.mod u w = .ok t) : u = w ∧ t = u := by
  unfold MUnit.mod at h
  split at h
  · rename_i e; cases h; exact ⟨e, rfl⟩
  · cases h

theorem binary_same (l : Lib n) (hl : l.Ok) (f : Binary) {a a' b b' r r' : Qty n} (ha : Same a a') (hb : Same b b')
    (hi : f.Independent a.unit b.unit) (hi' : f.Independent a'.unit b'.unit) (hr : f.run l a b = .ok r) (hr' : f.run l a' b' = .ok r') : Same r r' := by
  cases f with
  | add =>
    obtain ⟨u, hu, rfl⟩ := map_ok hr
    obtain ⟨w, hw, rfl⟩ := map_ok hr'
    obtain ⟨hu', rfl⟩ := add_ok hu
    obtain ⟨hw', rfl⟩ := add_ok hw
    rcases same_equal_units ha hb hu' hw' with ⟨x, y, rfl, rfl, rfl, rfl⟩ | ⟨x, y, m, m', e, c, hm, hm', hc, hmm, rfl, rfl, rfl, rfl⟩
    · exact same_none _
    · refine same_some rfl hm hm' ?_
      dsimp only
      rw [hmm]
      cases x <;> cases y <;>
        simp only [physical, rescale, arith, VV.add, VV.addScalar, VV.scalarAdd, Prod.mk.injEq, Option.some.injEq, and_true] <;> (try constructor) <;> ring
  | sub =>
    obtain ⟨u, hu, rfl⟩ := map_ok hr
    obtain ⟨w, hw, rfl⟩ := map_ok hr'
    obtain ⟨hu', rfl⟩ := sub_ok hu
    obtain ⟨hw', rfl⟩ := sub_ok hw
    rcases same_equal_units ha hb hu' hw' with ⟨x, y, rfl, rfl, rfl, rfl⟩ | ⟨x, y, m, m', e, c, hm, hm', hc, hmm, rfl, rfl, rfl, rfl⟩
    · exact same_none _
    · refine same_some rfl hm hm' ?_
      dsimp only
      rw [hmm]
      cases x <;> cases y <;>
        simp only [physical, rescale, arith, VV.sub, VV.subScalar, VV.scalarSub, Prod.mk.injEq, Option.some.injEq, and_true] <;> (try constructor) <;> ring
  | mul =>
    obtain ⟨u, hu, rfl⟩ := map_ok hr
    obtain ⟨w, hw, rfl⟩ := map_ok hr'
    rcases same_cases ha with ⟨x, rfl, rfl⟩ | ⟨x, m, m', e, c, hm, hm', hc, hmm, rfl, rfl⟩ <;>
      rcases same_cases hb with ⟨y, rfl, rfl⟩ | ⟨y, k, k', e', d, hk, hk', hd, hkk, rfl, rfl⟩
    · cases hu; cases hw; exact same_none _
    · cases hu
    · cases hu
    · simp only [MUnit.mul] at hu hw
      split at hu
      · split at hw
        · cases hu; cases hw
          refine same_some rfl (by simp only [PreciseUnit.mul]; positivity) (by simp only [PreciseUnit.mul]; positivity) ?_
          simp only [PreciseUnit.mul]
          push_cast
          rw [hmm, hkk]
          cases x <;> cases y <;>
            simp only [physical, rescale, arith, VV.mul, VV.mulScalar, VV.scalarMul, Prod.mk.injEq, Option.some.injEq, and_true] <;> (try constructor) <;> ring
        · cases hw
      · cases hu
  | div =>
    obtain ⟨u, hu, rfl⟩ := map_ok hr
    obtain ⟨w, hw, rfl⟩ := map_ok hr'
    rcases same_cases ha with ⟨x, rfl, rfl⟩ | ⟨x, m, m', e, c, hm, hm', hc, hmm, rfl, rfl⟩ <;>
      rcases same_cases hb with ⟨y, rfl, rfl⟩ | ⟨y, k, k', e', d, hk, hk', hd, hkk, rfl, rfl⟩
    · cases hu; cases hw; exact same_none _
    · cases hu
    · cases hu
    · simp only [MUnit.div] at hu hw
      split at hu
      · split at hw
        · cases hu; cases hw
          have hkr : (0 : ℝ) < k' := by exact_mod_cast hk'
          refine same_some rfl (by simp only [PreciseUnit.div]; positivity) (by simp only [PreciseUnit.div]; positivity) ?_
          simp only [PreciseUnit.div]
          push_cast
          rw [hmm, hkk]
          cases x <;> cases y <;>
            simp only [physical, rescale, arith, VV.div, VV.divScalar, VV.scalarDiv, Prod.mk.injEq, Option.some.injEq, and_true]
          · rename_i v w
            by_cases hv : w = 0
            · simp [hv]
            · field_simp
          · rename_i v w
            by_cases hv : w.value = 0
            · simp [hv]
            · constructor <;> field_simp
          · rename_i v w
            by_cases hv : w = 0
            · simp [hv]
            · constructor <;> field_simp
          · rename_i v w
            by_cases hv : w.value = 0
            · simp [hv]
            · constructor <;> field_simp
        · cases hw
      · cases hu
  | floorDivide =>
    obtain ⟨x, hx, hr⟩ := bind_ok hr
    obtain ⟨u, hu, hr⟩ := bind_ok hr
    obtain ⟨x', hx', hr'⟩ := bind_ok hr'
    obtain ⟨w, hw, hr'⟩ := bind_ok hr'
    cases hr; cases hr'
    obtain ⟨v1, v2, e1, e2, rfl⟩ := plain2_ok hx
    obtain ⟨w1, w2, f1, f2, rfl⟩ := plain2_ok hx'
    rcases same_equal_units ha hb hi hi' with ⟨x, y, rfl, rfl, rfl, rfl⟩ | ⟨x, y, m, m', e, c, hm, hm', hc, hmm, rfl, rfl, rfl, rfl⟩
    · dsimp only at e1 e2 f1 f2
      rw [e1] at f1; rw [e2] at f2; cases f1; cases f2
      cases hu; cases hw
      exact same_none _
    · dsimp only at e1 e2 f1 f2
      subst e1; subst e2; cases f1; cases f2
      simp only [MUnit.div] at hu hw
      split at hu
      · split at hw
        · cases hu; cases hw
          refine same_some rfl (by simp only [PreciseUnit.div]; positivity) (by simp only [PreciseUnit.div]; positivity) ?_
          simp only [PreciseUnit.div, div_self hm.ne', div_self hm'.ne', floorDiv_scale _ _ hc]
        · cases hw
      · cases hu
  | mod =>
    obtain ⟨x, hx, hr⟩ := bind_ok hr
    obtain ⟨u, hu, hr⟩ := bind_ok hr
    obtain ⟨x', hx', hr'⟩ := bind_ok hr'
    obtain ⟨w, hw, hr'⟩ := bind_ok hr'
    cases hr; cases hr'
    obtain ⟨v1, v2, e1, e2, rfl⟩ := plain2_ok hx
    obtain ⟨w1, w2, f1, f2, rfl⟩ := plain2_ok hx'
    obtain ⟨hu', rfl⟩ := mod_ok hu
    obtain ⟨hw', rfl⟩ := mod_ok hw
    rcases same_equal_units ha hb hu' hw' with ⟨x, y, rfl, rfl, rfl, rfl⟩ | ⟨x, y, m, m', e, c, hm, hm', hc, hmm, rfl, rfl, rfl, rfl⟩
    · dsimp only at e1 e2 f1 f2
      rw [e1] at f1; rw [e2] at f2; cases f1; cases f2
      exact same_none _
    · dsimp only at e1 e2 f1 f2
      subst e1; subst e2; cases f1; cases f2
      refine same_some rfl hm hm' ?_
      simp only [physical, remainder, floorDiv_scale _ _ hc, Prod.mk.injEq, and_true]
      rw [hmm]; ring
  | atan2 =>
    obtain ⟨x, hx, hr⟩ := bind_ok hr
    obtain ⟨u, hu, hr⟩ := bind_ok hr
    obtain ⟨x', hx', hr'⟩ := bind_ok hr'
    obtain ⟨w, hw, hr'⟩ := bind_ok hr'
    cases hr; cases hr'
    obtain ⟨v1, v2, e1, e2, rfl⟩ := plain2_ok hx
    obtain ⟨w1, w2, f1, f2, rfl⟩ := plain2_ok hx'
    have key : ∀ {p q t : MUnit n}, atan2Unit l p q = .ok t → p = q ∧ t = some l.rad := by
      intro p q t h
      cases p with
      | none => cases h
      | some p => cases q with
        | none => cases h
        | some q =>
          simp only [atan2Unit] at h
          split at h
          · rename_i e; cases h; exact ⟨by rw [e], rfl⟩
          · cases h
    obtain ⟨hu', rfl⟩ := key hu
    obtain ⟨hw', rfl⟩ := key hw
    rcases same_equal_units ha hb hu' hw' with ⟨x, y, rfl, rfl, rfl, rfl⟩ | ⟨x, y, m, m', e, c, hm, hm', hc, hmm, rfl, rfl, rfl, rfl⟩
    · dsimp only at e1 e2 f1 f2
      rw [e1] at f1; rw [e2] at f2; cases f1; cases f2
      exact same_some rfl hl.rad hl.rad rfl
    · dsimp only at e1 e2 f1 f2
      subst e1; subst e2; cases f1; cases f2
      refine same_some rfl hl.rad hl.rad ?_
      simp only [physical, hl.atan2 _ _ _ hc]
  | midpoint =>
    obtain ⟨x, hx, hr⟩ := bind_ok hr
    obtain ⟨u, hu, hr⟩ := bind_ok hr
    obtain ⟨x', hx', hr'⟩ := bind_ok hr'
    obtain ⟨w, hw, hr'⟩ := bind_ok hr'
    cases hr; cases hr'
    obtain ⟨v1, v2, e1, e2, rfl⟩ := plain2_ok hx
    obtain ⟨w1, w2, f1, f2, rfl⟩ := plain2_ok hx'
    obtain ⟨hu', rfl⟩ := add_ok hu
    obtain ⟨hw', rfl⟩ := add_ok hw
    rcases same_equal_units ha hb hu' hw' with ⟨x, y, rfl, rfl, rfl, rfl⟩ | ⟨x, y, m, m', e, c, hm, hm', hc, hmm, rfl, rfl, rfl, rfl⟩
    · dsimp only at e1 e2 f1 f2
      rw [e1] at f1; rw [e2] at f2; cases f1; cases f2
      exact same_none _
    · dsimp only at e1 e2 f1 f2
      subst e1; subst e2; cases f1; cases f2
      refine same_some rfl hm hm' ?_
      simp only [physical, Prod.mk.injEq, and_true]
      rw [hmm]; ring

end Scipp.UnitFn
