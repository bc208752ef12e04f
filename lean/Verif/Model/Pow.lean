import Verif.Model.Arr
import Verif.Model.Unit
import Verif.Model.Numeric
import Mathlib.Data.Rat.Floor
/-
Model of `lib/variable/pow.cpp`: powers of variables, into a new variable and into an existing one. Numbers are rational numbers,
exact for integers; rounding, overflow and infinities are not modelled. Variances (see C30) and binned variables are not modelled, and
neither are slices as output (which cannot change the unit) nor read-only output.
-/
namespace Scipp.Pow

/-- The element types accepted by `pow` (`lib/core/include/scipp/core/element/math.h` 61-88, `pow.cpp` 75). -/
inductive PType
  | double | float | int64 | int32
deriving DecidableEq

/-- `is_int` (`lib/core/include/scipp/core/dtype.h`, used in `pow.cpp` 91, 94). -/
def PType.isInt : PType → Bool
  | .int64 | .int32 => true
  | _ => false

/-- A variable (`lib/variable/include/scipp/variable/variable.h`): element type, unit and elements. -/
structure PVar (n : Nat) where
  dtype : PType
  unit : MUnit n
  arr : Arr ℚ

variable {n : Nat}

open MUnit (one)

/-- The variables of a program. Distinct indices are variables that do not share memory. -/
abbrev Store (n : Nat) := Nat → PVar n

/-- Replace a variable. -/
def Store.put (σ : Store n) (i : Nat) (x : PVar n) : Store n := fun j => if j = i then x else σ j

/-- `set_elem_unit` (`lib/variable/variable_factory.cpp` 77-79). -/
def Store.setUnit (σ : Store n) (i : Nat) (u : MUnit n) : Store n := σ.put i { σ i with unit := u }

/-- Conversion of an element (`static_cast` in `lib/variable/astype.cpp` 38-56): truncation if the new type is an integer type.
The limited range of the new type is not modelled. -/
def conv (t : PType) (x : ℚ) : ℚ :=
  if t.isInt then (if 0 ≤ x then (⌊x⌋ : ℚ) else (⌈x⌉ : ℚ)) else x

/-- `astype` (`astype.cpp` 69-73). -/
def astype (x : PVar n) (t : PType) : PVar n :=
  if t = x.dtype then x else ⟨t, x.unit, x.arr.dims, fun c => conv t (x.arr.val c)⟩

/-- The power of two elements (`math.h` 68-71, `numeric::pow` in `lib/common/include/scipp/common/numeric.h` 99-113). `fp` is `std::pow`. -/
def powElem (fp : ℚ → ℚ → ℚ) (exponentType : PType) (b e : ℚ) : ℚ :=
  if exponentType.isInt then Numeric.powInt b ⌊e⌋ else fp b e

/-- The combinations of types accepted by `element::pow` and `element::pow_in_place`, where the type of the output is that of the base
(`math.h` 62-66, 74-81). -/
def accepted : PType → PType → Bool
  | .double, _ => true
  | .float, _ => true
  | .int64, .int64 => true
  | .int64, .int32 => true
  | _, _ => false

/-- The type of the result of `element::pow` (the C++ types of `numeric.h` 99-113 and of `std::pow`). -/
def resultType : PType → PType → PType
  | .float, .double => .double
  | b, _ => b

/-- `pow_do_transform` without `in_place` (`pow.cpp` 23-24). The units are one at this point. -/
def doTransform (fp : ℚ → ℚ → ℚ) (b e : PVar n) : Except Err (PVar n) :=
  if accepted b.dtype e.dtype = false then .error .dtype
  else
    match Arr.zip (powElem fp e.dtype) b.arr e.arr with
    | .error x => .error x
    | .ok a => .ok ⟨resultType b.dtype e.dtype, one, a⟩

/-- `pow_do_transform` with `in_place` (`pow.cpp` 29-31). The units are one at this point. -/
def doTransformInPlace (fp : ℚ → ℚ → ℚ) (σ : Store n) (o e : Nat) : Store n × Except Err Unit :=
  if accepted (σ o).dtype (σ e).dtype = false then (σ, .error .dtype)
  else if Sizes.includes (σ o).arr.dims (σ e).arr.dims = false then (σ, .error .dimension)
  else (σ.put o { σ o with arr := ⟨(σ o).arr.dims, fun c => powElem fp (σ e).dtype ((σ o).arr.val c) ((σ e).arr.val c)⟩ }, .ok ())

/-- `PowUnit` (`pow.cpp` 36-49). The exponent is a scalar. `static_cast<int64_t>` of a number out of range is not modelled. -/
def powUnit (r : ExpRange n) (u : MUnit n) (e : PVar n) : Except Err (MUnit n) :=
  if e.dtype.isInt = false ∧ conv .int64 (e.arr.val fun _ => 0) ≠ e.arr.val fun _ => 0 then .error .unit
  else MUnit.pow r u ⌊e.arr.val fun _ => 0⌋

/-- `pow_handle_unit` with `in_place` (`pow.cpp` 51-78). -/
def handleUnitInPlace (r : ExpRange n) (fp : ℚ → ℚ → ℚ) (σ : Store n) (o e : Nat) : Store n × Except Err Unit :=
  if (σ e).unit ≠ one then (σ, .error .unit)
  else if (σ o).unit = one then doTransformInPlace fp σ o e
  else if (σ e).arr.dims ≠ [] then (σ, .error .dimension)
  else
    match doTransformInPlace fp (σ.setUnit o one) o e with
    | (σ', .error x) => (σ', .error x)
    | (σ', .ok ()) =>
      match powUnit r (σ o).unit (σ' e) with
      | .error x => (σ', .error x)
      | .ok u => (σ'.setUnit o u, .ok ())

/-- A temporary variable `b` (index 0) beside the exponent `e`. -/
def temp (b e : PVar n) : Store n := fun i => if i = 0 then b else e

/-- `pow_handle_unit` with `in_place` applied to a temporary variable. -/
def handleUnitTemp (r : ExpRange n) (fp : ℚ → ℚ → ℚ) (b e : PVar n) : Except Err (PVar n) :=
  match handleUnitInPlace r fp (temp b e) 0 1 with
  | (_, .error x) => .error x
  | (σ, .ok ()) => .ok (σ 0)

/-- `pow_handle_unit` without `in_place` (`pow.cpp` 51-78): with a unit, the power is computed in place in a copy of the base. -/
def handleUnit (r : ExpRange n) (fp : ℚ → ℚ → ℚ) (b e : PVar n) : Except Err (PVar n) :=
  if e.unit ≠ one then .error .unit
  else if b.unit = one then doTransform fp b e
  else handleUnitTemp r fp b e

/-- `has_negative_value` (`pow.cpp` 80-83): the smallest element is negative. -/
def hasNegative (e : PVar n) : Bool :=
  (List.range (Dims.volume e.arr.dims).toNat).any fun k => decide (e.arr.val (coordsOf e.arr.dims k) < 0)

/-- `pow_handle_dtype` without `in_place` (`pow.cpp` 85-103). -/
def handleDtype (r : ExpRange n) (fp : ℚ → ℚ → ℚ) (b e : PVar n) : Except Err (PVar n) :=
  if b.dtype.isInt = false then handleUnit r fp b e
  else if e.dtype.isInt then (if hasNegative e then .error .invalidArgument else handleUnit r fp b e)
  else handleUnitTemp r fp (astype b e.dtype) e

/-- `pow_handle_dtype` with `in_place` (`pow.cpp` 85-103). In the last case `astype` makes a new variable, and the caller ignores the
value returned. -/
def handleDtypeInPlace (r : ExpRange n) (fp : ℚ → ℚ → ℚ) (σ : Store n) (o e : Nat) : Store n × Except Err Unit :=
  if (σ o).dtype.isInt = false then handleUnitInPlace r fp σ o e
  else if (σ e).dtype.isInt then (if hasNegative (σ e) then (σ, .error .invalidArgument) else handleUnitInPlace r fp σ o e)
  else
    match handleUnitTemp r fp (astype (σ o) (σ e).dtype) (σ e) with
    | .error x => (σ, .error x)
    | .ok _ => (σ, .ok ())

/-- `pow(base, exponent)` (`pow.cpp` 106-109). -/
def pow (r : ExpRange n) (fp : ℚ → ℚ → ℚ) (b e : PVar n) : Except Err (PVar n) :=
  match Dims.merge b.arr.dims e.arr.dims with
  | .error x => .error x
  | .ok dims => handleDtype r fp { b with arr := ⟨dims, b.arr.val⟩ } e

/-- `copy(astype(base, out.dtype()), out)` (`pow.cpp` 114): the elements and the unit are copied, the dims of the output include those
of the base. -/
def copyInto (σ : Store n) (b o : Nat) : Store n :=
  σ.put o ⟨(σ o).dtype, (σ b).unit, (σ o).arr.dims, (astype (σ b) (σ o).dtype).arr.val⟩

/-- `pow(base, exponent, out)` (`pow.cpp` 111-117) for the variables with indices `b`, `e` and `o`. `x **= y` is `pow(x, y, x)`
(`lib/python/bind_operators.h` 207-213). -/
def powOut (r : ExpRange n) (fp : ℚ → ℚ → ℚ) (σ : Store n) (b e o : Nat) : Store n × Except Err Unit :=
  match Dims.merge (σ b).arr.dims (σ e).arr.dims with
  | .error x => (σ, .error x)
  | .ok dims =>
    if dims ≠ (σ o).arr.dims then (σ, .error .dimension)
    else handleDtypeInPlace r fp (copyInto σ b o) o e

end Scipp.Pow
