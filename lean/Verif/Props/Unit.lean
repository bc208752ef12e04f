import Verif.Model.Unit
import Mathlib.Tactic.Ring
import Mathlib.Tactic.FieldSimp
/-!
Property C32: unit arithmetic.
-/
namespace Scipp.Props
open Scipp MUnit
variable {n : Nat}

/-- Multipliers of units are positive. -/
def MUnit.Pos (u : MUnit n) : Prop := ∀ a, u = some a → 0 < a.mult

/-- **C32** (sum, difference, remainder): defined exactly for equal units, which is the unit of the result. -/
theorem C32_add (a b c : MUnit n) : (add a b = .ok c ↔ a = b ∧ c = a) ∧ (sub a b = .ok c ↔ a = b ∧ c = a) ∧ (mod a b = .ok c ↔ a = b ∧ c = a) ∧
    (a ≠ b → add a b = .error .unit ∧ sub a b = .error .unit ∧ mod a b = .error .unit) := by
  have key : ∀ (f : MUnit n → MUnit n → Except Err (MUnit n)), (∀ a b, f a b = if a = b then .ok a else .error .unit) →
      (f a b = .ok c ↔ a = b ∧ c = a) := by
    intro f hf
    rw [hf]
    by_cases h : a = b
    · rw [if_pos h]
      constructor
      · intro h2; injection h2 with h2; exact ⟨h, h2.symm⟩
      · intro h2; rw [h2.2]
    · rw [if_neg h]
      constructor
      · intro h2; simp at h2
      · intro h2; exact absurd h2.1 h
  refine ⟨key add (fun _ _ => rfl), key sub (fun _ _ => rfl), key mod (fun _ _ => rfl), ?_⟩
  intro h
  simp [add, sub, mod, h]

example := (C32_add (n := 2) (some ⟨1, fun _ => 1⟩) (some ⟨1000, fun _ => 1⟩) none).2.2.2
  (by simp)

/-- **C32** (None): a product or quotient of None with None is None, with a unit it throws. -/
theorem C32_none (r : ExpRange n) (a : PreciseUnit n) :
    mul r none none = .ok none ∧ div r none none = .ok none ∧
    mul r none (some a) = .error .unit ∧ mul r (some a) none = .error .unit ∧
    div r none (some a) = .error .unit ∧ div r (some a) none = .error .unit ∧ add none (some a) = .error .unit ∧
    sub none (some a) = .error .unit := by
  refine ⟨rfl, rfl, rfl, rfl, rfl, rfl, ?_, ?_⟩ <;> simp [add, sub]

/-- **C32** (what the product is): multipliers are multiplied, exponents added. -/
theorem C32_mul (r : ExpRange n) (a b c : PreciseUnit n) (h : mul r (some a) (some b) = .ok (some c)) :
    c.mult = a.mult * b.mult ∧ ∀ i, c.exps i = a.exps i + b.exps i := by
  simp only [mul] at h
  split at h
  · injection h with h; injection h with h; subst h; exact ⟨rfl, fun _ => rfl⟩
  · simp at h

/-- m·s: base units `0` (m) and `1` (s). -/
example := C32_mul (n := 2) (fun _ => (-8, 7)) ⟨1, fun i => if i = 0 then 1 else 0⟩ ⟨60, fun i => if i = 1 then 1 else 0⟩ _ rfl

theorem fits_iff (r : ExpRange n) (u : PreciseUnit n) : r.fits u = true ↔ ∀ i, (r i).1 ≤ u.exps i ∧ u.exps i ≤ (r i).2 := by
  simp [ExpRange.fits]

/-- **C32** (when the product fails): only if an exponent is not representable. -/
theorem C32_mul_fails_iff (r : ExpRange n) (a b : PreciseUnit n) : mul r (some a) (some b) = .error .unit ↔
    ∃ i, a.exps i + b.exps i < (r i).1 ∨ (r i).2 < a.exps i + b.exps i := by
  have hfit : r.fits (a.mul b) = true ↔ ∀ i, (r i).1 ≤ a.exps i + b.exps i ∧ a.exps i + b.exps i ≤ (r i).2 := by
    rw [fits_iff]; rfl
  simp only [mul]
  by_cases h : ∃ i, a.exps i + b.exps i < (r i).1 ∨ (r i).2 < a.exps i + b.exps i
  · simp only [h, iff_true]
    rw [if_neg]
    obtain ⟨i, hi⟩ := h
    intro hall
    have := hfit.mp hall i
    omega
  · simp only [h, iff_false]
    rw [if_pos]
    · simp
    · apply hfit.mpr
      intro i
      constructor <;> by_contra hc
      · exact h ⟨i, .inl (by omega)⟩
      · exact h ⟨i, .inr (by omega)⟩

example := (C32_mul_fails_iff (n := 2) (fun _ => (-8, 7)) ⟨1, fun _ => 5⟩ ⟨1, fun _ => 3⟩).2 ⟨0, .inr (by decide)⟩

/-- **C32** (order of operands): multiplication is commutative, including failure. -/
theorem C32_mul_comm (r : ExpRange n) (a b : MUnit n) : mul r a b = mul r b a := by
  cases a <;> cases b <;> try rfl
  rename_i a b
  have : a.mul b = b.mul a := by
    simp only [PreciseUnit.mul, PreciseUnit.mk.injEq]
    exact ⟨mul_comm _ _, by funext i; exact add_comm _ _⟩
  simp only [mul, this]

/-- **C32** (grouping): if both groupings are defined they agree. -/
theorem C32_mul_assoc (r : ExpRange n) (a b c ab bc x y : MUnit n) (h1 : mul r a b = .ok ab) (h2 : mul r ab c = .ok x)
    (h3 : mul r b c = .ok bc) (h4 : mul r a bc = .ok y) : x = y := by
  cases a <;> cases b <;> cases c <;> simp only [mul] at h1 h3 <;> try (simp at h1; done)
  · injection h1 with h1; injection h3 with h3; subst h1; subst h3
    simp only [mul] at h2 h4
    injection h2 with h2; injection h4 with h4; rw [← h2, ← h4]
  all_goals try (simp at h3; done)
  split at h1
  · split at h3
    · injection h1 with h1; injection h3 with h3; subst h1; subst h3
      simp only [mul] at h2 h4
      split at h2
      · split at h4
        · injection h2 with h2; injection h4 with h4
          rw [← h2, ← h4]
          simp only [PreciseUnit.mul, Option.some.injEq, PreciseUnit.mk.injEq]
          exact ⟨mul_assoc _ _ _, by funext i; exact add_assoc _ _ _⟩
        · simp at h4
      · simp at h2
    · simp at h3
  · simp at h1

example := C32_mul_assoc (n := 1) (fun _ => (-8, 7)) (some ⟨2, fun _ => 1⟩) (some ⟨3, fun _ => 2⟩) (some ⟨5, fun _ => -4⟩) _ _ _ _ rfl rfl rfl rfl

/-- **C32** (neutral element): multiplying or dividing a representable unit by one changes nothing. -/
theorem C32_one (r : ExpRange n) (a : PreciseUnit n) (h : ∀ i, (r i).1 ≤ a.exps i ∧ a.exps i ≤ (r i).2) :
    mul r (some a) one = .ok (some a) ∧ div r (some a) one = .ok (some a) := by
  have e1 : a.mul ⟨1, fun _ => 0⟩ = a := by simp [PreciseUnit.mul]
  have e2 : a.div ⟨1, fun _ => 0⟩ = a := by simp [PreciseUnit.div]
  have hf : r.fits a = true := by
    apply List.all_eq_true.mpr
    intro i _
    simpa using h i
  constructor
  · simp only [mul, one, e1, hf, if_true]
  · simp only [div, one, e2, hf, if_true]

example := C32_one (n := 1) (fun _ => (-8, 7)) ⟨2, fun _ => 3⟩ (by decide)

/-- **C32** (inverse): division undoes multiplication and vice versa. -/
theorem C32_div_mul (r : ExpRange n) (a b q : MUnit n) (hb : MUnit.Pos b) (h : div r a b = .ok q)
    (ha : ∀ u, a = some u → ∀ i, (r i).1 ≤ u.exps i ∧ u.exps i ≤ (r i).2) : mul r q b = .ok a := by
  cases a <;> cases b <;> simp only [div] at h <;> try (simp at h; done)
  · injection h with h; subst h; rfl
  rename_i a b
  split at h
  · injection h with h; subst h
    have hb0 : b.mult ≠ 0 := (hb b rfl).ne'
    have e : (a.div b).mul b = a := by
      simp only [PreciseUnit.mul, PreciseUnit.div]
      cases a
      simp only [PreciseUnit.mk.injEq]
      exact ⟨by field_simp, by funext i; omega⟩
    have hf : r.fits a = true := by
      apply List.all_eq_true.mpr
      intro i _
      simpa using ha a rfl i
    simp only [mul, e, hf, if_true]
  · simp at h

example := C32_div_mul (n := 1) (fun _ => (-8, 7)) (some ⟨2, fun _ => 3⟩) (some ⟨5, fun _ => -1⟩) _ (by rintro _ ⟨⟩; norm_num) rfl
  (by rintro _ ⟨⟩; decide)

/-- **C32** (inverse): multiplication followed by division. -/
theorem C32_mul_div (r : ExpRange n) (a b p : MUnit n) (hb : MUnit.Pos b) (h : mul r a b = .ok p)
    (ha : ∀ u, a = some u → ∀ i, (r i).1 ≤ u.exps i ∧ u.exps i ≤ (r i).2) : div r p b = .ok a := by
  cases a <;> cases b <;> simp only [mul] at h <;> try (simp at h; done)
  · injection h with h; subst h; rfl
  rename_i a b
  split at h
  · injection h with h; subst h
    have hb0 : b.mult ≠ 0 := (hb b rfl).ne'
    have e : (a.mul b).div b = a := by
      simp only [PreciseUnit.mul, PreciseUnit.div]
      cases a
      simp only [PreciseUnit.mk.injEq]
      exact ⟨by field_simp, by funext i; omega⟩
    have hf : r.fits a = true := by
      apply List.all_eq_true.mpr
      intro i _
      simpa using ha a rfl i
    simp only [div, e, hf, if_true]
  · simp at h

example := C32_mul_div (n := 1) (fun _ => (-8, 7)) (some ⟨2, fun _ => 3⟩) (some ⟨5, fun _ => -1⟩) _ (by rintro _ ⟨⟩; norm_num) rfl
  (by rintro _ ⟨⟩; decide)

theorem toInt_id (p : Int) (h : -2 ^ 31 ≤ p ∧ p < 2 ^ 31) : toInt p = p := by
  simp only [toInt]; omega

/-- **C32** (powers): for powers representable as 32 bit integers, a power is the repeated product: the zeroth power is one, and the next power is obtained by multiplication
whenever it is defined. -/
theorem C32_pow_partial (r : ExpRange n) (a : PreciseUnit n) (ha : 0 < a.mult) (p q : Int) (hp : -2 ^ 31 ≤ p ∧ p < 2 ^ 31)
    (hq : -2 ^ 31 ≤ q ∧ q < 2 ^ 31) (hpq : -2 ^ 31 ≤ p + q ∧ p + q < 2 ^ 31) (x y z : MUnit n)
    (h1 : pow r (some a) p = .ok x) (h2 : pow r (some a) q = .ok y) (h3 : pow r (some a) (p + q) = .ok z) : mul r x y = .ok z := by
  simp only [pow, toInt_id _ hp, toInt_id _ hq, toInt_id _ hpq] at h1 h2 h3
  split at h1
  · split at h2
    · split at h3
      · rename_i hf
        injection h1 with h1; injection h2 with h2; injection h3 with h3
        subst h1; subst h2; subst h3
        have e : (a.pow p).mul (a.pow q) = a.pow (p + q) := by
          simp only [PreciseUnit.mul, PreciseUnit.pow, PreciseUnit.mk.injEq]
          exact ⟨(zpow_add₀ ha.ne' p q).symm, by funext i; exact (mul_add _ _ _).symm⟩
        simp only [mul, e, hf, if_true]
      · simp at h3
    · simp at h2
  · simp at h1

example := C32_pow_partial (n := 1) (fun _ => (-8, 7)) ⟨2, fun _ => 1⟩ (by norm_num) 5 (-3) (by decide) (by decide) (by decide) _ _ _ rfl rfl rfl

/-- **C32** (first powers). -/
theorem C32_pow_one (r : ExpRange n) (a : PreciseUnit n) (h : ∀ i, (r i).1 ≤ a.exps i ∧ a.exps i ≤ (r i).2) (h0 : ∀ i, (r i).1 ≤ 0 ∧ 0 ≤ (r i).2) :
    pow r (some a) 1 = .ok (some a) ∧ pow r (some a) 0 = .ok one := by
  have hf : r.fits a = true := by
    apply List.all_eq_true.mpr
    intro i _
    simpa using h i
  have hf0 : r.fits (⟨1, fun _ => 0⟩ : PreciseUnit n) = true := by
    apply List.all_eq_true.mpr
    intro i _
    simpa using h0 i
  have e1 : a.pow 1 = a := by simp [PreciseUnit.pow]
  have e0 : a.pow 0 = ⟨1, fun _ => 0⟩ := by simp [PreciseUnit.pow]
  simp only [pow, show toInt 1 = 1 from rfl, show toInt 0 = 0 from rfl, e1, e0, hf, hf0, if_true, one, and_self]

example := C32_pow_one (n := 1) (fun _ => (-8, 7)) ⟨2, fun _ => 3⟩ (by decide) (by decide)

/-- **C32** fails for powers that do not fit into 32 bits: they are reduced silently, e.g., m^(2³²) is one. -/
theorem C32_wrong_for_large_powers : pow (fun _ => (-8, 7)) (some ⟨1, fun _ => 1⟩ : MUnit 1) (2 ^ 32) = .ok one := by
  decide +kernel

/-- **C32** (square root): the square of the root is the unit itself, and the root of the square of a unit is the unit itself. -/
theorem C32_sqrt (r : ExpRange n) (root : ℚ → ℚ) (a : PreciseUnit n) (hroot : root a.mult * root a.mult = a.mult)
    (h : ∀ i, (r i).1 ≤ a.exps i ∧ a.exps i ≤ (r i).2) (s : MUnit n) (hs : sqrt root (some a) = .ok s) : mul r s s = .ok (some a) := by
  simp only [sqrt] at hs
  split at hs
  · rename_i hall
    injection hs with hs; subst hs
    have e : (⟨root a.mult, fun i => a.exps i / 2⟩ : PreciseUnit n).mul ⟨root a.mult, fun i => a.exps i / 2⟩ = a := by
      simp only [PreciseUnit.mul]
      cases a
      simp only [PreciseUnit.mk.injEq]
      refine ⟨hroot, ?_⟩
      funext i
      have := List.all_eq_true.mp hall i (List.mem_finRange i)
      simp only [decide_eq_true_eq] at this
      omega
    have hf : r.fits a = true := by
      apply List.all_eq_true.mpr
      intro i _
      simpa using h i
    simp only [mul, e, hf, if_true]
  · simp at hs

/-- The square root of 9 m⁴, with a root function exact for 9. -/
example := C32_sqrt (n := 1) (fun _ => (-8, 7)) (fun _ => 3) ⟨9, fun _ => 4⟩ (by norm_num) (by decide) _ rfl

/-- **C32** (root of a square). -/
theorem C32_sqrt_square (r : ExpRange n) (root : ℚ → ℚ) (a : PreciseUnit n) (hroot : root (a.mult * a.mult) = a.mult) (p : MUnit n)
    (h : mul r (some a) (some a) = .ok p) : sqrt root p = .ok (some a) := by
  simp only [mul] at h
  split at h
  · injection h with h; subst h
    have hex : ∀ i, (a.mul a).exps i = a.exps i + a.exps i := fun _ => rfl
    simp only [sqrt]
    rw [if_pos]
    · have : (⟨root (a.mul a).mult, fun i => (a.mul a).exps i / 2⟩ : PreciseUnit n) = a := by
        have h1 : (fun i => (a.mul a).exps i / 2) = a.exps := by
          funext i; rw [hex]; omega
        have h2 : root (a.mul a).mult = a.mult := hroot
        rw [h1, h2]
      rw [this]
    · apply List.all_eq_true.mpr
      intro i _
      simp only [decide_eq_true_eq]
      rw [hex]; omega
  · simp at h

example := C32_sqrt_square (n := 1) (fun _ => (-8, 7)) (fun _ => 3) ⟨3, fun _ => 2⟩ (by norm_num) _ rfl

/-- **C32** (odd exponents have no root). -/
theorem C32_sqrt_fails_iff (root : ℚ → ℚ) (a : PreciseUnit n) : sqrt root (some a) = .error .unit ↔ ∃ i, a.exps i % 2 = 1 := by
  simp only [sqrt]
  by_cases h : ∃ i, a.exps i % 2 = 1
  · simp only [h, iff_true]
    rw [if_neg]
    obtain ⟨i, hi⟩ := h
    intro hall
    have := List.all_eq_true.mp hall i (List.mem_finRange i)
    simp only [decide_eq_true_eq] at this
    omega
  · simp only [h, iff_false]
    rw [if_pos]
    · simp
    · apply List.all_eq_true.mpr
      intro i _
      simp only [decide_eq_true_eq]
      by_contra hc
      exact h ⟨i, by omega⟩

example := (C32_sqrt_fails_iff (n := 2) (fun _ => 3) ⟨9, fun i => if i = 0 then 4 else -3⟩).2 ⟨1, by decide⟩

/-- Metres and seconds: `m * s` is defined, dividing it by `s` gives `m`, square metres have a root. -/
example : let r : ExpRange 2 := fun _ => (-8, 7)
    let m : MUnit 2 := some ⟨1, fun i => if i = 0 then 1 else 0⟩
    let s : MUnit 2 := some ⟨1, fun i => if i = 1 then 1 else 0⟩
    mul r m s = .ok (some ⟨1, fun _ => 1⟩) ∧ div r (some ⟨1, fun _ => 1⟩) s = .ok m ∧ (mul r m m).bind (sqrt id) = .ok m ∧
    add m s = .error .unit ∧ mul (fun _ => (-8, 0)) m s = .error .unit := by
  have h : mul (fun _ => (-8, 7)) (some ⟨1, fun i => if i = 0 then 1 else 0⟩ : MUnit 2) (some ⟨1, fun i => if i = 1 then 1 else 0⟩) =
    .ok (some ⟨1, fun _ => 1⟩) := by
    have e : (⟨1, fun i => if i = 0 then 1 else 0⟩ : PreciseUnit 2).mul ⟨1, fun i => if i = 1 then 1 else 0⟩ = ⟨1, fun _ => 1⟩ := by
      simp only [PreciseUnit.mul, PreciseUnit.mk.injEq, mul_one, true_and]
      decide
    simp only [mul, e]; rfl
  have h2 : mul (fun _ => (-8, 7)) (some ⟨1, fun i => if i = 0 then 1 else 0⟩ : MUnit 2) (some ⟨1, fun i => if i = 0 then 1 else 0⟩) =
    .ok (some ⟨1, fun i => if i = 0 then 2 else 0⟩) := by
    have e : (⟨1, fun i => if i = 0 then 1 else 0⟩ : PreciseUnit 2).mul ⟨1, fun i => if i = 0 then 1 else 0⟩ =
        ⟨1, fun i => if i = 0 then 2 else 0⟩ := by
      simp only [PreciseUnit.mul, PreciseUnit.mk.injEq, mul_one, true_and]
      decide
    simp only [mul, e]; rfl
  refine ⟨h, C32_mul_div _ _ _ _ ?_ h ?_, ?_, by decide +kernel, rfl⟩
  · intro a ha; injection ha with ha; subst ha; decide
  · intro a ha; injection ha with ha; subst ha; decide
  · rw [h2]; exact C32_sqrt_square _ _ _ (mul_one _) _ h2

end Scipp.Props
