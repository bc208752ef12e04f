import Verif.Model.Arr
import Mathlib.Algebra.Order.Ring.Rat
/-
`midpoints` (`lib/variable/math.cpp`) and the midpoint of two elements (`lib/core/include/scipp/core/element/math.h`).
-/
namespace Scipp.Midpoints

/-- The smallest integer of a signed type of `w` bits (`std::numeric_limits<T>::min()`, the types of `math.h` 180). -/
def lowest (w : Nat) : Int := -2 ^ (w - 1)

/-- A result of signed arithmetic of `w` bits: undefined behaviour if it does not fit (`math.h` 35: the arithmetic of that line). -/
def signed (w : Nat) (x : Int) : Except Err Int :=
  if lowest w ≤ x ∧ x < -lowest w then .ok x else .error .ub

/-- Conversion to, or arithmetic in, the unsigned type `U` of `w` bits: modulo `2^w` (`math.h` 25-32, `static_cast<U>`). -/
def unsigned (w : Nat) (x : Int) : Int := x % 2 ^ w

/-- Conversion of an unsigned value to the signed type (`math.h` 34, `static_cast<T>`): values beyond the largest wrap. -/
def toSigned (w : Nat) (x : Int) : Int := if x < -lowest w then x else x - 2 ^ w

/-- The midpoint of two integers (`math.h` 23-35). The sign and the two ends are picked by one comparison. -/
def midpointInt (w : Nat) (a b : Int) : Except Err Int :=
  let sign : Int := if a > b then -1 else 1
  let m := unsigned w (if a > b then b else a)
  let M := unsigned w (if a > b then a else b)
  match signed w (sign * toSigned w (unsigned w (M - m) / 2)) with
  | .error e => .error e
  | .ok half => signed w (a + half)

/-- A result of floating-point arithmetic without rounding: beyond the largest finite value `huge` it is infinite, for which we return an
error (`math.h` 37-45: the arithmetic of these lines). -/
def finite (huge x : Rat) : Except Err Rat := if |x| ≤ huge then .ok x else .error .outOfRange

/-- The midpoint of two floating-point numbers (`math.h` 36-45) without rounding; `tiny` is `std::numeric_limits<T>::min()` and `huge` is
`std::numeric_limits<T>::max()`. -/
def midpointFloat (tiny huge a b : Rat) : Except Err Rat :=
  let lo := tiny * 2
  let hi := huge / 2
  if |a| ≤ hi ∧ |b| ≤ hi then
    match finite huge (a + b) with
    | .error e => .error e
    | .ok s => finite huge (s / 2)
  else if |a| < lo then finite huge (a + b / 2)
  else if |b| < lo then finite huge (a / 2 + b)
  else finite huge (a / 2 + b / 2)

/-- `var.slice({d, b, e})` (`lib/variable/math.cpp` 29): a view of the same elements. The end -1 makes a point slice
(`lib/core/slice.cpp` 23). -/
def sliced {V : Type} (x : Var V) (dim : Dim) (b e : Int) : Except Err (Var V) :=
  match Slice.range dim b e with
  | .error err => .error err
  | .ok p =>
    match x.view.slice p with
    | .error err => .error err
    | .ok v => .ok ⟨v, x.buf⟩

/-- The dimension to work along (`math.cpp` 11-24). `var.dim()` is the only label of a variable of one dimension. -/
def pickDim (dims : Dims) (dim : Option Dim) : Except Err Dim :=
  if dims.length = 0 then .error .dimension
  else
    match dim with
    | some d => .ok d
    | none =>
      match dims with
      | [(d, _)] => .ok d
      | _ => .error .invalidArgument

/-- The `transform` of `math.cpp` 29-30: the two slices, no variances allowed (`math.h` 181-182), elementwise midpoint. The slices have the same
unit, which the result keeps (`math.h` 183-186), so the unit is left out. -/
def combine {V : Type} (f : V → V → Except Err V) (variances : Bool) (x : Var V) (d : Dim) (len : Int) : Except Err (Arr (Except Err V)) :=
  match sliced x d 0 (len - 1) with
  | .error e => .error e
  | .ok a =>
    match sliced x d 1 len with
    | .error e => .error e
    | .ok b => if variances then .error .variances else Arr.zip f (Arr.ofVar a) (Arr.ofVar b)

/-- `midpoints` (`math.cpp` 10-31); `f` is the midpoint of two elements of the type of the variable. -/
def midpoints {V : Type} (f : V → V → Except Err V) (variances : Bool) (x : Var V) (dim : Option Dim) : Except Err (Arr (Except Err V)) :=
  match pickDim x.view.dims dim with
  | .error e => .error e
  | .ok d =>
    match Sizes.at? x.view.dims d with
    | .error e => .error e
    | .ok len => if len = 1 then .error .dimension else combine f variances x d len

end Scipp.Midpoints
