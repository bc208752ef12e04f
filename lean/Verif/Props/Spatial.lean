import Verif.Spec.Spatial
import Mathlib.Tactic.Ring
import Mathlib.Tactic.FieldSimp
import Mathlib.Tactic.LinearCombination
import Mathlib.Tactic.NormNum
/-
C61: spatial transformations.
-/
namespace Scipp.Props
open Scipp Spatial SpatialSpec SpatialValue
variable {K : Type} [Field K] [DecidableEq K]

/-- `a * v` is the point `v` is taken to by the transformation `a`. Missing for the full claim: quaternions of a norm other than one, see `C61_wrong_unnormalized`. -/
theorem C61_apply_partial (a : SpatialValue K) (v : V3 K) (ha : Proper a) : a.mul (.vector v) = .ok (.vector (act a v)) := by
  cases a with
  | vector _ => exact ha.elim
  | linear m => simp [SpatialValue.mul, act, M3.mulVec, V3.dot]
  | affine m t => simp [SpatialValue.mul, act, M3.mulVec, V3.dot, V3.add]
  | translation t => simp [SpatialValue.mul, act, V3.add]
  | rotation q =>
    simp only [Proper] at ha
    simp only [SpatialValue.mul, act, ha, div_one, Except.ok.injEq, vector.injEq]
    ext <;> simp only [Q4.rotate, V3.add, V3.cross, V3.smul, ham, SpatialSpec.pure]
    · linear_combination v.x * (-ha)
    · linear_combination v.y * (-ha)
    · linear_combination v.z * (-ha)

private theorem mulVec_mul (a b : M3 K) (v : V3 K) : (a.mul b).mulVec v = a.mulVec (b.mulVec v) := by
  ext <;> simp only [M3.mul, M3.mulVec, M3.transpose, V3.dot] <;> ring

private theorem mulVec_add (a : M3 K) (v w : V3 K) : a.mulVec (v.add w) = (a.mulVec v).add (a.mulVec w) := by
  ext <;> simp only [M3.mulVec, V3.dot, V3.add] <;> ring

private theorem toMatrix_mulVec (q : Q4 K) (v : V3 K) : q.toMatrix.mulVec v = q.rotate v := by
  ext <;> simp only [Q4.toMatrix, M3.mulVec, Q4.rotate, V3.dot, V3.add, V3.cross, V3.smul] <;> ring

private theorem act_rotation (q : Q4 K) (v : V3 K) (hq : Proper (.rotation q)) : act (.rotation q) v = q.rotate v := by
  have := C61_apply_partial (.rotation q) v hq
  simpa [SpatialValue.mul] using this.symm

private theorem norm_mul {a b : Q4 K} (ha : Proper (.rotation a)) (hb : Proper (.rotation b)) : Proper (.rotation (a.mul b)) := by
  simp only [Proper, Q4.mul] at *
  linear_combination (b.w ^ 2 + b.x ^ 2 + b.y ^ 2 + b.z ^ 2) * ha + hb

private theorem act_mul {a b : Q4 K} (ha : Proper (.rotation a)) (hb : Proper (.rotation b)) (v : V3 K) :
    act (.rotation (a.mul b)) v = act (.rotation a) (act (.rotation b) v) := by
  have hab := norm_mul ha hb
  simp only [Proper] at ha hb hab
  simp only [act, ha, hb, hab, div_one]
  ext <;> simp only [Q4.mul, ham, SpatialSpec.pure] <;> ring

private theorem act_linear (m : M3 K) (v : V3 K) : act (.linear m) v = m.mulVec v := by simp [act, M3.mulVec, V3.dot]
private theorem act_affine (m : M3 K) (t v : V3 K) : act (.affine m t) v = (m.mulVec v).add t := by simp [act, M3.mulVec, V3.dot, V3.add]
private theorem act_translation (t v : V3 K) : act (.translation t) v = v.add t := by simp [act, V3.add]
private theorem add_assoc3 (a b c : V3 K) : (a.add b).add c = a.add (b.add c) := by ext <;> simp only [V3.add] <;> ring
private theorem add_comm3 (a b : V3 K) : a.add b = b.add a := by ext <;> simp only [V3.add] <;> ring

/-- The product of two transformations is a transformation that stands for applying first the second factor, then the first, for each of the 16 combinations of types
except an affine transformation times a linear one. Missing for the full claim: that combination, see `C61_wrong_affine_linear`, and quaternions of a norm other than one. -/
theorem C61_compose_partial (a b : SpatialValue K) (ha : Proper a) (hb : Proper b) (h : ∀ m t m', ¬ (a = .affine m t ∧ b = .linear m')) :
    ∃ c, a.mul b = .ok c ∧ Proper c ∧ ∀ v, act c v = act a (act b v) := by
  cases a with
  | vector _ => exact ha.elim
  | linear m =>
    cases b with
    | vector _ => exact hb.elim
    | linear m' => exact ⟨_, rfl, trivial, fun v => by simp only [act_linear, mulVec_mul]⟩
    | affine m' t => exact ⟨_, rfl, trivial, fun v => by simp only [act_linear, act_affine, mulVec_mul, mulVec_add]⟩
    | translation t => exact ⟨_, rfl, trivial, fun v => by simp only [act_linear, act_affine, act_translation, mulVec_add]⟩
    | rotation q => exact ⟨_, rfl, trivial, fun v => by simp only [act_linear, act_rotation _ _ hb, mulVec_mul, toMatrix_mulVec]⟩
  | affine m s =>
    cases b with
    | vector _ => exact hb.elim
    | linear m' => exact (h m s m' ⟨rfl, rfl⟩).elim
    | affine m' t => exact ⟨_, rfl, trivial, fun v => by simp only [act_affine, mulVec_mul, mulVec_add, add_assoc3]⟩
    | translation t => exact ⟨_, rfl, trivial, fun v => by simp only [act_affine, act_translation, mulVec_add, add_assoc3]⟩
    | rotation q => exact ⟨_, rfl, trivial, fun v => by simp only [act_affine, act_rotation _ _ hb, mulVec_mul, toMatrix_mulVec]⟩
  | translation s =>
    cases b with
    | vector _ => exact hb.elim
    | linear m' => exact ⟨_, rfl, trivial, fun v => by simp only [act_linear, act_affine, act_translation]⟩
    | affine m' t => exact ⟨_, rfl, trivial, fun v => by simp only [act_affine, act_translation, add_assoc3]⟩
    | translation t => exact ⟨_, rfl, trivial, fun v => by simp only [act_translation, add_assoc3, add_comm3 s t]⟩
    | rotation q => exact ⟨_, rfl, trivial, fun v => by simp only [act_affine, act_translation, act_rotation _ _ hb, toMatrix_mulVec]⟩
  | rotation p =>
    cases b with
    | vector _ => exact hb.elim
    | linear m' => exact ⟨_, rfl, trivial, fun v => by simp only [act_linear, act_rotation _ _ ha, mulVec_mul, toMatrix_mulVec]⟩
    | affine m' t =>
      exact ⟨_, rfl, trivial, fun v => by simp only [act_affine, act_rotation _ _ ha, mulVec_mul, ← toMatrix_mulVec, mulVec_add]⟩
    | translation t => exact ⟨_, rfl, trivial, fun v => by simp only [act_affine, act_translation, act_rotation _ _ ha, ← toMatrix_mulVec, mulVec_add]⟩
    | rotation q => exact ⟨_, rfl, norm_mul ha hb, act_mul ha hb⟩

private theorem det_eq (m : M3 K) : m.det = m.r0.x * m.r1.y * m.r2.z + m.r0.y * m.r1.z * m.r2.x + m.r0.z * m.r1.x * m.r2.y
        - m.r0.z * m.r1.y * m.r2.x - m.r0.x * m.r1.z * m.r2.y - m.r0.y * m.r1.x * m.r2.z := by
  simp only [M3.det, V3.dot, V3.cross]; ring

private theorem inverse_mulVec (m : M3 K) (h : m.det ≠ 0) (v : V3 K) : m.inverse.mulVec (m.mulVec v) = v := by
  ext <;> simp only [M3.inverse, M3.mulVec, M3.transpose, V3.dot, V3.smul, V3.cross] <;>
    rw [← mul_right_inj' h] <;> field_simp <;> simp only [M3.det, V3.dot, V3.cross] <;> ring

private theorem mulVec_inverse (m : M3 K) (h : m.det ≠ 0) (v : V3 K) : m.mulVec (m.inverse.mulVec v) = v := by
  ext <;> simp only [M3.inverse, M3.mulVec, M3.transpose, V3.dot, V3.smul, V3.cross] <;>
    rw [← mul_right_inj' h] <;> field_simp <;> simp only [M3.det, V3.dot, V3.cross] <;> ring

/-- `inv(a)` is a transformation that undoes `a` and is undone by `a`. Missing for the full claim: quaternions of a norm other than one. -/
theorem C61_inverse_partial (a : SpatialValue K) (ha : Proper a) (h : NonSingular a) :
    ∃ b, a.inv = .ok b ∧ Proper b ∧ ∀ v, act b (act a v) = v ∧ act a (act b v) = v := by
  cases a with
  | vector _ => exact ha.elim
  | linear m =>
    have hd : m.det ≠ 0 := by rw [det_eq]; exact h
    exact ⟨_, rfl, trivial, fun v => by simp only [act_linear, inverse_mulVec m hd, mulVec_inverse m hd, and_self]⟩
  | affine m t =>
    have hd : m.det ≠ 0 := by rw [det_eq]; exact h
    refine ⟨_, rfl, trivial, fun v => ?_⟩
    have e : ∀ x y : V3 K, (x.add y).add (y.smul (-1)) = x := fun x y => by ext <;> simp only [V3.add, V3.smul] <;> ring
    have e' : ∀ x : V3 K, m.mulVec (x.smul (-1)) = (m.mulVec x).smul (-1) := fun x => by
      ext <;> simp only [M3.mulVec, V3.dot, V3.smul] <;> ring
    have e'' : ∀ x y : V3 K, (x.add (y.smul (-1))).add y = x := fun x y => by ext <;> simp only [V3.add, V3.smul] <;> ring
    simp only [act_affine, mulVec_add, e, e', e'', inverse_mulVec m hd, mulVec_inverse m hd, and_self]
  | translation t =>
    refine ⟨_, rfl, trivial, fun v => ?_⟩
    simp only [act_translation]
    constructor <;> ext <;> simp only [V3.add, V3.smul] <;> ring
  | rotation q =>
    have hn : q.norm2 = 1 := by simp only [Proper] at ha; simp only [Q4.norm2]; linear_combination ha
    have hi : q.inverse = ⟨q.w, -q.x, -q.y, -q.z⟩ := by simp [Q4.inverse, hn]
    have hb : Proper (.rotation q.inverse) := by rw [hi]; simp only [Proper] at *; linear_combination ha
    refine ⟨_, rfl, hb, fun v => ?_⟩
    rw [← act_mul hb ha, ← act_mul ha hb]
    have e1 : q.inverse.mul q = ⟨1, 0, 0, 0⟩ := by
      simp only [Proper] at ha
      rw [hi]; ext <;> simp only [Q4.mul]
      · linear_combination ha
      all_goals ring
    have e2 : q.mul q.inverse = ⟨1, 0, 0, 0⟩ := by
      simp only [Proper] at ha
      rw [hi]; ext <;> simp only [Q4.mul]
      · linear_combination ha
      all_goals ring
    rw [e1, e2]
    simp [act, ham, SpatialSpec.pure]

variable {n : Nat}

private theorem one_mul_unit (r : ExpRange n) (u : PreciseUnit n) (h : r.fits u = true) : MUnit.mul r (some ⟨1, fun _ => 0⟩) (some u) = .ok (some u) := by
  simp [MUnit.mul, PreciseUnit.mul, h]

private theorem unit_mul_one (r : ExpRange n) (u : PreciseUnit n) (h : r.fits u = true) : MUnit.mul r (some u) (some ⟨1, fun _ => 0⟩) = .ok (some u) := by
  simp [MUnit.mul, PreciseUnit.mul, h]

/-- One product of variables: a transformation of points in the unit `u` applied to a point in that unit. -/
private theorem mul_vector (r : ExpRange n) (u : PreciseUnit n) (hu : r.fits u = true) (a : SpatialVar K n) (ha : Proper a.value) (hua : HasUnit u a) (v : V3 K) :
    SpatialVar.mul r a ⟨.vector v, some u⟩ = .ok ⟨.vector (act a.value v), some u⟩ := by
  have h := C61_apply_partial a.value v ha
  obtain ⟨a, ua⟩ := a
  cases a <;> simp only [HasUnit] at hua <;> subst hua <;>
    simp only [SpatialVar.mul, withTranslation, isVector, Bool.true_and, Bool.false_and, Bool.or_true, Bool.false_eq_true, if_true, if_false, h, one_mul_unit r u hu, bind, Except.bind]
  exact ha.elim

/-- Composition respects units: for transformations `a`, `b` of points in the unit `u` the product `a * b` is again one, and `(a * b) * v = a * (b * v)` including the unit.
`fits` says that the units can be represented. Missing for the full claim: affine times linear, quaternions of a norm other than one, linear transformations with a unit other than one
(`C61_wrong_linear_unit`). -/
theorem C61_assoc_partial (r : ExpRange n) (u : PreciseUnit n) (hu : r.fits u = true) (h1 : r.fits ⟨1, fun _ => 0⟩ = true) (a b : SpatialVar K n) (v : V3 K)
    (ha : Proper a.value) (hb : Proper b.value) (hua : HasUnit u a) (hub : HasUnit u b) (h : ∀ m t m', ¬ (a.value = .affine m t ∧ b.value = .linear m')) :
    ∃ c x w, SpatialVar.mul r a b = .ok c ∧ HasUnit u c ∧ SpatialVar.mul r c ⟨.vector v, some u⟩ = .ok w
      ∧ SpatialVar.mul r b ⟨.vector v, some u⟩ = .ok x ∧ SpatialVar.mul r a x = .ok w
      ∧ w = ⟨.vector (act a.value (act b.value v)), some u⟩ := by
  obtain ⟨c, hc, hpc, hact⟩ := C61_compose_partial a.value b.value ha hb h
  have key : ∃ uc, SpatialVar.mul r a b = .ok ⟨c, uc⟩ ∧ HasUnit u ⟨c, uc⟩ := by
    have h11 := one_mul_unit r ⟨1, fun _ => 0⟩ h1
    have hau := one_mul_unit r u hu
    have hua' := unit_mul_one r u hu
    obtain ⟨a, ua⟩ := a
    obtain ⟨b, ub⟩ := b
    cases a with
    | vector _ => exact ha.elim
    | linear m =>
      simp only [HasUnit] at hua; subst hua
      cases b with
      | vector _ => exact hb.elim
      | _ =>
        simp only [HasUnit] at hub; subst hub
        simp only [SpatialVar.mul, withTranslation, hc, bind, Except.bind, Bool.false_and, Bool.false_eq_true, if_false, h11, hau]
        simp only [SpatialValue.mul, Except.ok.injEq] at hc
        subst hc
        exact ⟨_, rfl, rfl⟩
    | rotation m =>
      simp only [HasUnit] at hua; subst hua
      cases b with
      | vector _ => exact hb.elim
      | _ =>
        simp only [HasUnit] at hub; subst hub
        simp only [SpatialVar.mul, withTranslation, hc, bind, Except.bind, Bool.false_and, Bool.false_eq_true, if_false, h11, hau]
        simp only [SpatialValue.mul, Except.ok.injEq] at hc
        subst hc
        exact ⟨_, rfl, rfl⟩
    | affine m t =>
      simp only [HasUnit] at hua; subst hua
      cases b with
      | vector _ => exact hb.elim
      | linear m' => exact (h m t m' ⟨rfl, rfl⟩).elim
      | _ =>
        simp only [HasUnit] at hub; subst hub
        simp only [SpatialVar.mul, withTranslation, isVector, hc, bind, Except.bind, Bool.true_and, Bool.true_or, Bool.or_self, Bool.false_eq_true, if_false, if_true, hua']
        simp only [SpatialValue.mul, Except.ok.injEq] at hc
        subst hc
        exact ⟨_, rfl, rfl⟩
    | translation t =>
      simp only [HasUnit] at hua; subst hua
      cases b with
      | vector _ => exact hb.elim
      | _ =>
        simp only [HasUnit] at hub; subst hub
        simp only [SpatialVar.mul, withTranslation, isVector, hc, bind, Except.bind, Bool.true_and, Bool.true_or, Bool.or_self, Bool.false_eq_true, if_false, if_true, hua']
        simp only [SpatialValue.mul, Except.ok.injEq] at hc
        subst hc
        exact ⟨_, rfl, rfl⟩
  obtain ⟨uc, hm, huc⟩ := key
  refine ⟨_, _, _, hm, huc, ?_, mul_vector r u hu b hb hub v, mul_vector r u hu a ha hua _, rfl⟩
  rw [mul_vector r u hu ⟨c, uc⟩ hpc huc v, hact]

/-- The inverse of a transformation of points in the unit `u` is a transformation of points in that unit, and `inv(a) * (a * v) = v`. -/
theorem C61_inverse_unit_partial (r : ExpRange n) (u : PreciseUnit n) (hu : r.fits u = true) (h1 : r.fits ⟨1, fun _ => 0⟩ = true) (a : SpatialVar K n) (v : V3 K)
    (ha : Proper a.value) (hua : HasUnit u a) (h : NonSingular a.value) :
    ∃ b x, SpatialVar.inv r a = .ok b ∧ HasUnit u b ∧ SpatialVar.mul r a ⟨.vector v, some u⟩ = .ok x ∧ SpatialVar.mul r b x = .ok ⟨.vector v, some u⟩ := by
  obtain ⟨b, hb, hpb, hact⟩ := C61_inverse_partial a.value ha h
  have key : ∃ ub, SpatialVar.inv r a = .ok ⟨b, ub⟩ ∧ HasUnit u ⟨b, ub⟩ := by
    have hdiv : MUnit.div r MUnit.one (some ⟨1, fun _ => 0⟩) = .ok (some ⟨1, fun _ => 0⟩) := by simp [MUnit.div, MUnit.one, PreciseUnit.div, h1]
    obtain ⟨a, ua⟩ := a
    cases a with
    | vector _ => exact ha.elim
    | _ =>
      simp only [HasUnit] at hua; subst hua
      simp only [SpatialVar.inv, hb, withTranslation, bind, Except.bind, if_true, if_false, Bool.false_eq_true, hdiv]
      simp only [SpatialValue.inv, Except.ok.injEq] at hb
      subst hb
      exact ⟨_, rfl, rfl⟩
  obtain ⟨ub, hm, hub⟩ := key
  refine ⟨_, _, hm, hub, mul_vector r u hu a ha hua v, ?_⟩
  rw [mul_vector r u hu ⟨b, ub⟩ hpb hub, (hact v).1]

/-- Translations and affine transformations are applied to points, translations and affine transformations in their own unit only. -/
theorem C61_unit_mismatch (r : ExpRange n) (a b : SpatialVar K n) (ha : a.value.withTranslation = true) (hb : b.value.withTranslation = true ∨ b.value.isVector = true)
    (hu : a.unit ≠ b.unit) : SpatialVar.mul r a b = .error .unit := by
  obtain ⟨a, ua⟩ := a
  obtain ⟨b, ub⟩ := b
  cases a <;> cases b <;> simp_all [SpatialVar.mul, withTranslation, isVector, SpatialValue.mul, bind, Except.bind]


/-! Concrete cases: a turn about the z-axis, a shear with a translation, points in metres. -/

/-- The turn about the z-axis with sine 24/25 and cosine 7/25. -/
private def turn : SpatialValue ℚ := .rotation ⟨4/5, 0, 0, 3/5⟩
private def shear : M3 ℚ := ⟨⟨2, 1, 0⟩, ⟨0, 1, 3⟩, ⟨0, 0, 1⟩⟩

example : Proper turn ∧ turn.mul (.vector ⟨25, 0, 1⟩) = .ok (.vector ⟨7, 24, 1⟩) := by decide +kernel
example : turn.mul (.vector ⟨1, 0, 0⟩) = .ok (.vector (act turn ⟨1, 0, 0⟩)) := C61_apply_partial _ _ (by decide +kernel)
example : ∃ c, turn.mul (.affine shear ⟨1, 2, 3⟩) = .ok c ∧ Proper c ∧ ∀ v, act c v = act turn (act (.affine shear ⟨1, 2, 3⟩) v) :=
  C61_compose_partial _ _ (by decide +kernel) trivial (by simp [turn])
example : ∃ b, (SpatialValue.affine shear ⟨1, 2, 3⟩).inv = .ok b ∧ Proper b
    ∧ ∀ v, act b (act (.affine shear ⟨1, 2, 3⟩) v) = v ∧ act (.affine shear ⟨1, 2, 3⟩) (act b v) = v :=
  C61_inverse_partial _ trivial (by simp only [NonSingular, shear]; norm_num)

/-- One base unit with exponents from -8 to 7; its first power is the metre. -/
private def rng : ExpRange 1 := fun _ => (-8, 7)
private def metre : PreciseUnit 1 := ⟨1, fun _ => 1⟩

example : SpatialVar.mul rng ⟨turn, MUnit.one⟩ ⟨.translation ⟨25, 0, 0⟩, some metre⟩
    = .ok ⟨.affine ⟨⟨7/25, -24/25, 0⟩, ⟨24/25, 7/25, 0⟩, ⟨0, 0, 1⟩⟩ ⟨7, 24, 0⟩, some metre⟩ := by decide +kernel
example : ∃ c x w, SpatialVar.mul rng ⟨turn, MUnit.one⟩ ⟨.translation ⟨25, 0, 0⟩, some metre⟩ = .ok c ∧ HasUnit metre c
      ∧ SpatialVar.mul rng c ⟨.vector ⟨0, 0, 5⟩, some metre⟩ = .ok w ∧ SpatialVar.mul rng ⟨.translation ⟨25, 0, 0⟩, some metre⟩ ⟨.vector ⟨0, 0, 5⟩, some metre⟩ = .ok x
      ∧ SpatialVar.mul rng ⟨turn, MUnit.one⟩ x = .ok w ∧ w = ⟨.vector (act turn (act (.translation ⟨25, 0, 0⟩) ⟨0, 0, 5⟩)), some metre⟩ :=
  C61_assoc_partial rng metre (by decide) (by decide) _ _ _ (by decide +kernel) trivial rfl rfl (by simp [turn])
example : ∃ b x, SpatialVar.inv rng ⟨.affine shear ⟨1, 2, 3⟩, some metre⟩ = .ok b ∧ HasUnit metre b
    ∧ SpatialVar.mul rng ⟨.affine shear ⟨1, 2, 3⟩, some metre⟩ ⟨.vector ⟨0, 0, 5⟩, some metre⟩ = .ok x ∧ SpatialVar.mul rng b x = .ok ⟨.vector ⟨0, 0, 5⟩, some metre⟩ :=
  C61_inverse_unit_partial rng metre (by decide) (by decide) _ _ trivial rfl (by simp only [NonSingular, shear]; norm_num)
example : SpatialVar.mul rng (⟨.translation ⟨25, 0, 0⟩, some metre⟩ : SpatialVar ℚ 1) ⟨.vector ⟨1, 2, 3⟩, MUnit.one⟩ = .error .unit :=
  C61_unit_mismatch _ _ _ rfl (.inr rfl) (by decide +kernel)

/-- An affine transformation times a linear one is not their composition: the product has the type of a linear transformation. Here a shift by one along x, the identity, and the origin:
`(a * b) * v` is the origin, `a * (b * v)` is not. -/
theorem C61_wrong_affine_linear :
    ∃ (a b c : SpatialValue ℚ) (v : V3 ℚ), Proper a ∧ Proper b ∧ a.mul b = .ok c ∧ c.mul (.vector v) = .ok (.vector ⟨0, 0, 0⟩)
      ∧ b.mul (.vector v) = .ok (.vector v) ∧ a.mul (.vector v) = .ok (.vector ⟨1, 0, 0⟩) :=
  ⟨.affine M3.one ⟨1, 0, 0⟩, .linear M3.one, .linear ⟨⟨2, 1, 1⟩, ⟨0, 1, 0⟩, ⟨0, 0, 1⟩⟩, ⟨0, 0, 0⟩, trivial, trivial, by decide +kernel, by decide +kernel, by decide +kernel, by decide +kernel⟩

/-- The comment in `Quaternion::inverse` says that quaternions need not be normalized, but for those a product is not the composition and the inverse does not undo the rotation:
for `q = 1 + i` the product `q * inv(q)` is the identity, but `q * (inv(q) * v)` is not `v`. -/
theorem C61_wrong_unnormalized :
    ∃ (q p : SpatialValue ℚ) (v w : V3 ℚ), q.inv = .ok p ∧ q.mul p = .ok (.rotation ⟨1, 0, 0, 0⟩) ∧ p.mul (.vector v) = .ok (.vector w) ∧ q.mul (.vector w) ≠ .ok (.vector v) :=
  ⟨.rotation ⟨1, 1, 0, 0⟩, .rotation ⟨1/2, -1/2, 0, 0⟩, ⟨0, 1, 0⟩, ⟨0, 1/2, -1/2⟩, by decide +kernel, by decide +kernel, by decide +kernel, by decide +kernel⟩

/-- A linear transformation with a unit does not compose with translations: `m * (t * v)` is defined, `(m * t) * v` is refused. -/
theorem C61_wrong_linear_unit :
    ∃ (m t v x y c : SpatialVar ℚ 1), SpatialVar.mul rng t v = .ok x ∧ SpatialVar.mul rng m x = .ok y ∧ SpatialVar.mul rng m t = .ok c ∧ SpatialVar.mul rng c v = .error .unit :=
  ⟨⟨.linear shear, some metre⟩, ⟨.translation ⟨1, 0, 0⟩, some metre⟩, ⟨.vector ⟨0, 0, 0⟩, some metre⟩, ⟨.vector ⟨1, 0, 0⟩, some metre⟩,
   ⟨.vector ⟨2, 0, 0⟩, some ⟨1, fun _ => 2⟩⟩, ⟨.affine shear ⟨2, 0, 0⟩, some ⟨1, fun _ => 2⟩⟩, by decide +kernel, by decide +kernel, by decide +kernel, by decide +kernel⟩

end Scipp.Props
