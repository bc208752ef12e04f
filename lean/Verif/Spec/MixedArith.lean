import Verif.Model.MixedArith
/-!
Vocabulary for statements about arithmetic of elements of different types.
-/
namespace Scipp.MixedArith
open Scipp
variable {F : Floats}

/-- The four types of numbers, from narrow to wide. -/
def ET.rank : ET → Nat
  | .bool => 0
  | .i32 => 1
  | .i64 => 2
  | .f32 => 3
  | .f64 => 4
  | .time => 5

/-- The wider of two types. -/
def wider (a b : ET) : ET := if a.rank ≤ b.rank then b else a

/-- Floating-point types. -/
def ET.isFloat : ET → Bool
  | .f64 | .f32 => true
  | _ => false

/-- The type of the result of an operation on numbers. -/
def resultType (op : Op) (a b : ET) : ET :=
  if op = .div ∧ a.isFloat = false ∧ b.isFloat = false then .f64 else wider a b

/-- The exact result of adding, subtracting or multiplying integers. -/
def exact (op : Op) (x y : Int) : Option Int :=
  match op with
  | .add => some (x + y)
  | .sub => some (x - y)
  | .mul => some (x * y)
  | _ => none

/-- Integers are within the range of their type. -/
def Val.InRange : Val F → Prop
  | .i64 n | .time n => -2 ^ 63 ≤ n ∧ n < 2 ^ 63
  | .i32 n => -2 ^ 31 ≤ n ∧ n < 2 ^ 31
  | _ => True

/-- The result `q` of an operation, converted to the type `t`: integers are widened or wrapped, floating-point numbers are rounded. -/
def ConvertedTo (t : ET) (q r : Val F) : Prop :=
  r.et = t ∧ (q.et = t → r = q) ∧
    (t = .f64 → r = .f64 q.asF64) ∧ (t = .f32 → r = .f32 q.asF32) ∧ (∀ n, q = .i32 n → t = .i64 → r = .i64 n) ∧
    (∀ n, q = .i64 n → t = .i32 → r.InRange ∧ ∃ k : Int, r.asInt = n + k * 2 ^ 32)

end Scipp.MixedArith
