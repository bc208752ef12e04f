import Verif.Model.Unit
import Mathlib.Data.Rat.Floor
import Mathlib.Algebra.Order.Ring.Rat

/-!
# Floating-point numbers with infinities and NaN

Models the element functions of reductions, `lib/core/include/scipp/core/element/comparison.h`
117-168, `arithmetic.h` 29-40, and of `isclose`, `comparison.h` 29-55. Finite numbers are rationals:
rounding, overflow and signed zeros are not modelled.
-/

namespace Scipp.Special

/-- `double` or `float`. Simplified: rationals for finite numbers, a single NaN and a single zero. Models the type the
functions in `lib/common/include/scipp/common/numeric.h` 114-145 are defined for. -/
inductive Ext
  | nan
  | ninf
  | fin (q : ℚ)
  | pinf
  deriving DecidableEq

namespace Ext

/-- `numeric::isnan` (`numeric.h` 114-122). -/
def isnan : Ext → Bool
  | nan => true
  | _ => false

/-- `numeric::isinf` (`numeric.h` 124-130). -/
def isinf : Ext → Bool
  | ninf => true
  | pinf => true
  | _ => false

/-- `numeric::isfinite` (`numeric.h` 132-138). -/
def isfinite : Ext → Bool
  | fin _ => true
  | _ => false

/-- `numeric::signbit` (`numeric.h` 140-145); only used for infinities, false for NaN and zero here. -/
def signbit : Ext → Bool
  | ninf => true
  | fin q => decide (q < 0)
  | _ => false

/-- `<=` of IEEE numbers, used in `comparison.h` 38, 54 and by `std::max` below. -/
def le : Ext → Ext → Bool
  | nan, _ => false
  | _, nan => false
  | ninf, _ => true
  | _, pinf => true
  | fin p, fin q => decide (p ≤ q)
  | _, _ => false

/-- `<` of IEEE numbers (`value_and_variance.h` 301, 306 and `std::max`, `std::min`, used in `comparison.h` 126, 138, 150,
162). -/
def lt (a b : Ext) : Bool := !a.isnan && !b.isnan && !le b a

/-- `-` of one argument, used in `sub` (`comparison.h` 38, 54). -/
def neg : Ext → Ext
  | nan => nan
  | ninf => pinf
  | pinf => ninf
  | fin q => fin (-q)

/-- `+` of IEEE numbers, used by `+=` in `arithmetic.h` 30, 38 and by `atol + rtol * abs(b)` in
`lib/variable/comparison.cpp` 55. -/
def add : Ext → Ext → Ext
  | nan, _ => nan
  | _, nan => nan
  | fin p, fin q => fin (p + q)
  | ninf, pinf => nan
  | pinf, ninf => nan
  | ninf, _ => ninf
  | _, ninf => ninf
  | pinf, _ => pinf
  | _, pinf => pinf

/-- `x - y` (`comparison.h` 38, 54). -/
def sub (a b : Ext) : Ext := add a (neg b)

/-- `abs` (`comparison.h` 38, 54 and `comparison.cpp` 55). -/
def abs : Ext → Ext
  | nan => nan
  | ninf => pinf
  | pinf => pinf
  | fin q => fin |q|

/-- Infinity with the sign of a number, NaN for zero; used in `mul`. -/
def infOfSign (q : ℚ) : Ext := if q = 0 then nan else if 0 < q then pinf else ninf

/-- `*` of IEEE numbers (`rtol * abs(b)` in `comparison.cpp` 55, `numerator * reciprocal(…)` in
`lib/variable/operations_common.h` 27). -/
def mul : Ext → Ext → Ext
  | nan, _ => nan
  | _, nan => nan
  | fin p, fin q => fin (p * q)
  | fin p, pinf => infOfSign p
  | fin p, ninf => infOfSign (-p)
  | pinf, fin q => infOfSign q
  | ninf, fin q => infOfSign (-q)
  | pinf, pinf => pinf
  | ninf, ninf => pinf
  | _, _ => ninf

/-- `reciprocal` of a count (`operations_common.h` 28). -/
def reciprocalOfCount (n : Nat) : Ext := if n = 0 then pinf else fin (1 / (n : ℚ))

end Ext

open Ext

/-- `ValueAndVariance` (`lib/core/include/scipp/core/value_and_variance.h` 20-60), both possibly not finite. -/
structure ExtVV where
  value : Ext
  variance : Ext
  deriving DecidableEq

/-- `std::max`: `(a < b) ? b : a` (used in `comparison.h` 126, 138). -/
def stdMax (a b : Ext) : Ext := if lt a b then b else a

/-- `std::min`: `(b < a) ? b : a` (used in `comparison.h` 150, 162). -/
def stdMin (a b : Ext) : Ext := if lt b a then b else a

/-- `max` for `ValueAndVariance` (`value_and_variance.h` 303-307). -/
def vvMax (a b : ExtVV) : ExtVV := if lt b.value a.value then a else b

/-- `min` for `ValueAndVariance` (`value_and_variance.h` 298-302). -/
def vvMin (a b : ExtVV) : ExtVV := if lt a.value b.value then a else b

/-- `max_equals` and `min_equals` (`comparison.h` 117-127, 141-151) for given `max` and `isnan`. -/
def extremum {V : Type} (isnan : V → Bool) (max : V → V → V) (a b : V) : V :=
  if isnan b then b
  else if !isnan a then max a b
  else a

/-- First `if` of `nanmax_equals` and `nanmin_equals` (`comparison.h` 135-136, 159-160). -/
def orElse {V : Type} (isnan : V → Bool) (a b : V) : V := if isnan a then b else a

/-- `nanmax_equals` and `nanmin_equals` (`comparison.h` 129-139, 153-163). -/
def nanExtremum {V : Type} (isnan : V → Bool) (max : V → V → V) (a b : V) : V :=
  if !isnan b then max (orElse isnan a b) b else orElse isnan a b

/-- `max_equals` for numbers (`comparison.h` 117-127). -/
def maxEquals : Ext → Ext → Ext := extremum Ext.isnan stdMax

/-- `min_equals` for numbers (`comparison.h` 141-151). -/
def minEquals : Ext → Ext → Ext := extremum Ext.isnan stdMin

/-- `nanmax_equals` for numbers (`comparison.h` 129-139). -/
def nanmaxEquals : Ext → Ext → Ext := nanExtremum Ext.isnan stdMax

/-- `nanmin_equals` for numbers (`comparison.h` 153-163). -/
def nanminEquals : Ext → Ext → Ext := nanExtremum Ext.isnan stdMin

/-- `isnan` for `ValueAndVariance` (`value_and_variance.h` 109-112). -/
def ExtVV.isnan (a : ExtVV) : Bool := a.value.isnan

/-- `max_equals` for values with variances (`comparison.h` 117-127). -/
def vvMaxEquals : ExtVV → ExtVV → ExtVV := extremum ExtVV.isnan vvMax

/-- `min_equals` for values with variances (`comparison.h` 141-151). -/
def vvMinEquals : ExtVV → ExtVV → ExtVV := extremum ExtVV.isnan vvMin

/-- `nanmax_equals` for values with variances (`comparison.h` 129-139). -/
def vvNanmaxEquals : ExtVV → ExtVV → ExtVV := nanExtremum ExtVV.isnan vvMax

/-- `nanmin_equals` for values with variances (`comparison.h` 153-163). -/
def vvNanminEquals : ExtVV → ExtVV → ExtVV := nanExtremum ExtVV.isnan vvMin

/-- `add_equals` (`arithmetic.h` 29-30). -/
def addEquals (a b : Ext) : Ext := add a b

/-- First `if` of `nan_add_equals` (`arithmetic.h` 35-36). -/
def forceZero (a : Ext) : Ext := if a.isnan then fin 0 else a

/-- `nan_add_equals` (`arithmetic.h` 32-40). -/
def nanAddEquals (a b : Ext) : Ext := if !b.isnan then add (forceZero a) b else forceZero a

/-- Initial value of `max` and `nanmax`, `numeric_limits::lowest` (`lib/variable/reduction.cpp` 81, 89 and
`lib/core/include/scipp/core/element/creation.h` 54-58); `big` is `numeric_limits::max`. -/
def lowest (big : ℚ) : Ext := fin (-big)

/-- Initial value of `min` and `nanmin` (`reduction.cpp` 97, 105, `creation.h` 48-52). -/
def highest (big : ℚ) : Ext := fin big

/-- Sum of `isfinite` over elements (`reduction.cpp` 157, 207). -/
def countFinite (l : List Ext) : Nat := l.countP Ext.isfinite

/-- `normalize_impl` (`operations_common.h` 21-29) of a sum and a count. -/
def normalize (sum : Ext) (count : Nat) : Ext := mul sum (reciprocalOfCount count)

/-! ### isclose -/

/-- `element::isclose` (`comparison.h` 33-39). -/
def iscloseElement (x y t : Ext) : Bool := le (abs (sub x y)) t

/-- `element::isclose_equal_nan` (`comparison.h` 41-55). -/
def iscloseEqualNan (x y t : Ext) : Bool :=
  if x.isnan && y.isnan then true
  else if x.isinf && y.isinf && x.signbit == y.signbit then true
  else le (abs (sub x y)) t

/-- `atol + rtol * abs(b)` (`comparison.cpp` 55). -/
def tolerance (rtol atol y : Ext) : Ext := add atol (mul rtol (abs y))

/-- The element function selected by the flag (`comparison.cpp` 60-66). -/
def iscloseSelect (equalNan : Bool) (x y t : Ext) : Bool :=
  if equalNan then iscloseEqualNan x y t else iscloseElement x y t

/-- `isclose` for an element of variables that do not both have variances: variances of one of them are ignored
(`comparison.cpp` 55, 60-66, comparisons of `value_and_variance.h` 255-267). -/
def iscloseValue (equalNan : Bool) (rtol atol x y : Ext) : Bool := iscloseSelect equalNan x y (tolerance rtol atol y)

/-- `isclose` for an element with value and standard deviation of both (`comparison.cpp` 56-58). Simplified: square
roots are taken of the variances before. -/
def iscloseBoth (equalNan : Bool) (rtol atol x xStddev y yStddev : Ext) : Bool :=
  iscloseValue equalNan rtol atol x y && iscloseValue equalNan rtol atol xStddev yStddev

/-- Units in `isclose`: `expect_rtol_unit_dimensionless_or_none`, the unit of `atol + rtol * abs(b)` and `isclose_units`
(`comparison.cpp` 36-41, 46, 55, `comparison.h` 26-31). `abs` keeps the unit. -/
def iscloseUnits {n : Nat} (r : ExpRange n) (a b rtol atol : MUnit n) : Except Err (MUnit n) :=
  if (if atol = none then none else MUnit.one) ≠ rtol then .error .unit
  else match MUnit.mul r rtol b with
    | .error e => .error e
    | .ok u => match MUnit.add atol u with
      | .error e => .error e
      | .ok t => if a ≠ b then .error .unit else if a ≠ t then .error .unit else .ok none

end Scipp.Special
