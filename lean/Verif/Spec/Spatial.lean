import Verif.Model.Spatial
import Mathlib.Algebra.Field.Basic
/-
Specification of spatial transformations: the map of space to itself that a transformation stands for.
-/
namespace Scipp.SpatialSpec
open Spatial
variable {K : Type} [Field K] [DecidableEq K]

/-- A point as a quaternion without scalar part. -/
def pure (v : V3 K) : Q4 K := ⟨0, v.x, v.y, v.z⟩

/-- The product of quaternions, given by `i² = j² = k² = ijk = -1`. -/
def ham (a b : Q4 K) : Q4 K :=
  ⟨a.w * b.w - a.x * b.x - a.y * b.y - a.z * b.z, a.w * b.x + a.x * b.w + a.y * b.z - a.z * b.y,
   a.w * b.y - a.x * b.z + a.y * b.w + a.z * b.x, a.w * b.z + a.x * b.y - a.y * b.x + a.z * b.w⟩

/-- The map a transformation stands for: `v ↦ M v`, `v ↦ M v + t`, `v ↦ v + t`, `v ↦ q v q⁻¹`. The last is written as `q v q̄ / |q|²` and is the same rotation for all multiples
of `q`. -/
def act : SpatialValue K → V3 K → V3 K
  | .vector _, v => v
  | .linear m, v =>
      ⟨m.r0.x * v.x + m.r0.y * v.y + m.r0.z * v.z, m.r1.x * v.x + m.r1.y * v.y + m.r1.z * v.z, m.r2.x * v.x + m.r2.y * v.y + m.r2.z * v.z⟩
  | .affine m t, v =>
      ⟨m.r0.x * v.x + m.r0.y * v.y + m.r0.z * v.z + t.x, m.r1.x * v.x + m.r1.y * v.y + m.r1.z * v.z + t.y, m.r2.x * v.x + m.r2.y * v.y + m.r2.z * v.z + t.z⟩
  | .translation t, v => ⟨v.x + t.x, v.y + t.y, v.z + t.z⟩
  | .rotation q, v =>
      let p := ham (ham q (pure v)) ⟨q.w, -q.x, -q.y, -q.z⟩
      let n := q.w ^ 2 + q.x ^ 2 + q.y ^ 2 + q.z ^ 2
      ⟨p.x / n, p.y / n, p.z / n⟩

/-- A transformation, not a point; rotations are given by quaternions of norm one, as the documentation of `sc.spatial.rotation` demands. -/
def Proper : SpatialValue K → Prop
  | .vector _ => False
  | .rotation q => q.w ^ 2 + q.x ^ 2 + q.y ^ 2 + q.z ^ 2 = 1
  | _ => True

instance (a : SpatialValue K) : Decidable (Proper a) := by cases a <;> unfold Proper <;> infer_instance

/-- The determinant of the linear part by Sarrus' rule; a transformation with a determinant of zero has no inverse. -/
def NonSingular : SpatialValue K → Prop
  | .linear m | .affine m _ =>
      m.r0.x * m.r1.y * m.r2.z + m.r0.y * m.r1.z * m.r2.x + m.r0.z * m.r1.x * m.r2.y
        - m.r0.z * m.r1.y * m.r2.x - m.r0.x * m.r1.z * m.r2.y - m.r0.y * m.r1.x * m.r2.z ≠ 0
  | _ => True

end Scipp.SpatialSpec

namespace Scipp.SpatialSpec
variable {K : Type} {n : Nat}

/-- Points and translations are lengths (or whatever else the space consists of) in the unit `u`. Linear maps and rotations have no unit. The unit of an affine transformation is that of its translation. -/
def HasUnit (u : PreciseUnit n) (a : SpatialVar K n) : Prop :=
  match a.value with
  | .linear _ | .rotation _ => a.unit = some ⟨1, fun _ => 0⟩
  | _ => a.unit = some u

end Scipp.SpatialSpec
