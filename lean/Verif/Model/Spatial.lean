import Verif.Model.Unit
import Mathlib.Algebra.Field.Basic
/-
Model of the spatial transformations: `lib/core/include/scipp/core/spatial_transforms.h`, the products of `lib/variable/arithmetic.cpp` 17-20, 50-62 with the
element operations of `lib/core/include/scipp/core/element/arithmetic.h` 99-129, 156-173, and `lib/variable/inv.cpp`.

The repository leaves the arithmetic to the Eigen library, which is not part of it. The products of matrices, quaternions, translations and affine transformations
below are those Eigen documents for the types `Matrix3d`, `Quaterniond`, `Translation<double, 3>` and `Affine3d`. Numbers are elements of a field, rounding is not modelled.
-/
namespace Scipp
namespace Spatial

/-- `Eigen::Vector3d`. -/
@[ext] structure V3 (K : Type) where
  (x y z : K)
deriving DecidableEq

/-- `Eigen::Matrix3d`, by rows. -/
@[ext] structure M3 (K : Type) where
  (r0 r1 r2 : V3 K)
deriving DecidableEq

/-- `Eigen::Quaterniond`, the member of `Quaternion` (`spatial_transforms.h` 18-22). -/
@[ext] structure Q4 (K : Type) where
  (w x y z : K)
deriving DecidableEq

variable {K : Type} [Field K] [DecidableEq K]

/-- Sum of two vectors. -/
def V3.add (a b : V3 K) : V3 K := ⟨a.x + b.x, a.y + b.y, a.z + b.z⟩

/-- A vector times a number. -/
def V3.smul (s : K) (a : V3 K) : V3 K := ⟨s * a.x, s * a.y, s * a.z⟩

/-- `Eigen`'s `dot`. -/
def V3.dot (a b : V3 K) : K := a.x * b.x + a.y * b.y + a.z * b.z

/-- `Eigen`'s `cross`. -/
def V3.cross (a b : V3 K) : V3 K := ⟨a.y * b.z - a.z * b.y, a.z * b.x - a.x * b.z, a.x * b.y - a.y * b.x⟩

/-- `Matrix3d * Vector3d`. -/
def M3.mulVec (m : M3 K) (v : V3 K) : V3 K := ⟨m.r0.dot v, m.r1.dot v, m.r2.dot v⟩

/-- The columns of a matrix. -/
def M3.transpose (m : M3 K) : M3 K := ⟨⟨m.r0.x, m.r1.x, m.r2.x⟩, ⟨m.r0.y, m.r1.y, m.r2.y⟩, ⟨m.r0.z, m.r1.z, m.r2.z⟩⟩

/-- `Matrix3d * Matrix3d`: every column of the second is multiplied by the first. -/
def M3.mul (a b : M3 K) : M3 K :=
  M3.transpose ⟨a.mulVec b.transpose.r0, a.mulVec b.transpose.r1, a.mulVec b.transpose.r2⟩

/-- `Matrix3d::determinant`. -/
def M3.det (m : M3 K) : K := m.r0.dot (m.r1.cross m.r2)

/-- `Matrix3d::inverse`: for matrices of size 3 Eigen divides the cofactors by the determinant. -/
def M3.inverse (m : M3 K) : M3 K :=
  let d := 1 / m.det
  M3.transpose ⟨(m.r1.cross m.r2).smul d, (m.r2.cross m.r0).smul d, (m.r0.cross m.r1).smul d⟩

/-- The identity, linear part of the transformation a translation is converted to. -/
def M3.one : M3 K := ⟨⟨1, 0, 0⟩, ⟨0, 1, 0⟩, ⟨0, 0, 1⟩⟩

/-- `Quaterniond * Quaterniond` (`spatial_transforms.h` 141-144). -/
def Q4.mul (a b : Q4 K) : Q4 K :=
  ⟨a.w * b.w - a.x * b.x - a.y * b.y - a.z * b.z, a.w * b.x + a.x * b.w + a.y * b.z - a.z * b.y,
   a.w * b.y + a.y * b.w + a.z * b.x - a.x * b.z, a.w * b.z + a.z * b.w + a.x * b.y - a.y * b.x⟩

/-- `Quaterniond::squaredNorm`. -/
def Q4.norm2 (q : Q4 K) : K := q.w * q.w + q.x * q.x + q.y * q.y + q.z * q.z

/-- `Quaternion::inverse` (`spatial_transforms.h` 52-56), that is `Quaterniond::inverse`: the conjugate divided by the squared norm; zero for the quaternion zero. -/
def Q4.inverse (q : Q4 K) : Q4 K :=
  if q.norm2 = 0 then ⟨0, 0, 0, 0⟩ else ⟨q.w / q.norm2, -q.x / q.norm2, -q.y / q.norm2, -q.z / q.norm2⟩

/-- `Quaterniond::_transformVector`, used for `Quaterniond * Vector3d` (`spatial_transforms.h` 131-134): Eigen's formula for quaternions of norm one, with
`t = 2 (u × v)` the result is `v + w t + u × t` where `u` is the vector part. -/
def Q4.rotate (q : Q4 K) (v : V3 K) : V3 K :=
  let u : V3 K := ⟨q.x, q.y, q.z⟩
  let t := (u.cross v).add (u.cross v)
  (v.add (t.smul q.w)).add (u.cross t)

/-- `Quaterniond::toRotationMatrix`, used when a quaternion is multiplied with a matrix, a translation or an affine transformation. -/
def Q4.toMatrix (q : Q4 K) : M3 K :=
  let tx := 2 * q.x; let ty := 2 * q.y; let tz := 2 * q.z
  ⟨⟨1 - (ty * q.y + tz * q.z), ty * q.x - tz * q.w, tz * q.x + ty * q.w⟩,
   ⟨ty * q.x + tz * q.w, 1 - (tx * q.x + tz * q.z), tz * q.y - tx * q.w⟩,
   ⟨tz * q.x - ty * q.w, tz * q.y + tx * q.w, 1 - (tx * q.x + ty * q.y)⟩⟩

end Spatial

open Spatial

/-- An element of the dtypes of `lib/core/include/scipp/core/eigen.h` 27, `spatial_transforms.h` 151-154: `vector3`, `linear_transform3`, `affine_transform3`
(linear part and translation), `translation3`, `rotation3`. -/
inductive SpatialValue (K : Type) where
  | vector (v : V3 K)
  | linear (m : M3 K)
  | affine (m : M3 K) (t : V3 K)
  | translation (t : V3 K)
  | rotation (q : Q4 K)
deriving DecidableEq

namespace SpatialValue
variable {K : Type} [Field K] [DecidableEq K]

/-- `operator*` of the elements for the pairs of types listed in `core/element/arithmetic.h` 113-117, 121-129 (pairs with numbers are left out); any other pair of types is
refused when the operation is dispatched. `combines_to_linear`, `combines_to_affine` and the operators of `spatial_transforms.h` 89-149, otherwise Eigen's own operators.
For `Affine3d * Matrix3d` there is no operator in `spatial_transforms.h`: Eigen's takes the columns of the matrix as three points and transforms each of them. -/
def mul : SpatialValue K → SpatialValue K → Except Err (SpatialValue K)
  | linear a, vector v => .ok (vector (a.mulVec v))
  | rotation a, vector v => .ok (vector (a.rotate v))
  | affine a s, vector v => .ok (vector ((a.mulVec v).add s))
  | translation s, vector v => .ok (vector (v.add s))
  | linear a, linear b => .ok (linear (a.mul b))
  | linear a, affine b t => .ok (affine (a.mul b) (a.mulVec t))
  | linear a, translation t => .ok (affine a (a.mulVec t))
  | linear a, rotation b => .ok (linear (a.mul b.toMatrix))
  | affine a s, linear b => .ok (linear (M3.transpose
      ⟨(a.mulVec b.transpose.r0).add s, (a.mulVec b.transpose.r1).add s, (a.mulVec b.transpose.r2).add s⟩))
  | affine a s, affine b t => .ok (affine (a.mul b) ((a.mulVec t).add s))
  | affine a s, translation t => .ok (affine a ((a.mulVec t).add s))
  | affine a s, rotation b => .ok (affine (a.mul b.toMatrix) s)
  | translation s, linear b => .ok (affine b s)
  | translation s, affine b t => .ok (affine b (t.add s))
  | translation s, translation t => .ok (translation (s.add t))
  | translation s, rotation b => .ok (affine b.toMatrix s)
  | rotation a, linear b => .ok (linear (a.toMatrix.mul b))
  | rotation a, affine b t => .ok (affine (a.toMatrix.mul b) (a.toMatrix.mulVec t))
  | rotation a, translation t => .ok (affine a.toMatrix (a.toMatrix.mulVec t))
  | rotation a, rotation b => .ok (rotation (a.mul b))
  | vector _, _ => .error .dtype

/-- `transform.inverse()` (`lib/variable/inv.cpp` 14-19). For `Affine3d` Eigen inverts the linear part and applies the result to the negated translation. -/
def inv : SpatialValue K → Except Err (SpatialValue K)
  | vector _ => .error .dtype
  | linear m => .ok (linear m.inverse)
  | affine m t => .ok (affine m.inverse ((m.inverse.mulVec t).smul (-1)))
  | translation t => .ok (translation (t.smul (-1)))
  | rotation q => .ok (rotation q.inverse)

/-- `is_transform_with_translation` (`lib/variable/arithmetic.cpp` 17-20, `inv.cpp` 29-32). -/
def withTranslation : SpatialValue K → Bool
  | affine .. => true
  | translation .. => true
  | _ => false

/-- `dtype() == dtype<Eigen::Vector3d>`. -/
def isVector : SpatialValue K → Bool
  | vector _ => true
  | _ => false

end SpatialValue

/-- A variable without dims: an element and the unit. Elementwise application to arrays is the subject of C07 and C12. -/
structure SpatialVar (K : Type) (n : Nat) where
  value : SpatialValue K
  unit : MUnit n
deriving DecidableEq

namespace SpatialVar
variable {K : Type} [Field K] [DecidableEq K] {n : Nat}

/-- `operator*(Variable, Variable)` (`lib/variable/arithmetic.cpp` 50-62): `apply_spatial_transformation` requires equal units
(`core/element/arithmetic.h` 161-173), `multiply` multiplies them. The branch for correlated operands requires variances, which these dtypes do not have. -/
def mul (r : ExpRange n) (a b : SpatialVar K n) : Except Err (SpatialVar K n) :=
  if a.value.withTranslation && (b.value.withTranslation || b.value.isVector) then do
    let x ← a.value.mul b.value
    if a.unit = b.unit then .ok ⟨x, a.unit⟩ else .error .unit
  else do
    let x ← a.value.mul b.value
    let u ← MUnit.mul r a.unit b.unit
    .ok ⟨x, u⟩

/-- `inv(Variable)` with `result_unit` (`lib/variable/inv.cpp` 34-49). -/
def inv (r : ExpRange n) (a : SpatialVar K n) : Except Err (SpatialVar K n) := do
  let x ← a.value.inv
  if a.value.withTranslation then .ok ⟨x, a.unit⟩
  else do
    let u ← MUnit.div r MUnit.one a.unit
    .ok ⟨x, u⟩

end SpatialVar
end Scipp
