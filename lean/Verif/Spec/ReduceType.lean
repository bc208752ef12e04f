import Verif.Model.ReduceType
/-!
Vocabulary for statements about types and integer sums of reductions.
-/
namespace Scipp.ReduceType
open Scipp MixedArith

/-- Type of the result of a reduction: sums and extrema have the type of the elements, except that `bool` are counted with 64 bits; means of
integers are double precision; there is no sum and no mean of datetimes, and only `bool` have `all` and `any`. -/
def resultOf : Red → ET → Option ET
  | .sum, .time | .nansum, .time | .mean, .time | .nanmean, .time => none
  | .sum, .bool | .nansum, .bool => some .i64
  | .sum, t | .nansum, t | .min, t | .max, t | .nanmin, t | .nanmax, t => some t
  | .mean, .f32 | .nanmean, .f32 => some .f32
  | .mean, _ | .nanmean, _ => some .f64
  | .all, .bool | .any, .bool => some .bool
  | .all, _ | .any, _ => none

/-- The outcome with that type and a unit. -/
def outcome {U : Type} (t : Option ET) (u : U) : Except Err (ET × U) :=
  match t with
  | some t => .ok (t, u)
  | none => .error .dtype

variable {F : Floats}

/-- All ways to sum up integers with an accumulator of type `t`: one after another, starting from zero, in any order, and by adding such
partial sums. -/
inductive SumsTo (t : ET) : List (Val F) → Except Err (Val F) → Prop
  | start : SumsTo t [] (.ok (zero t))
  | element {l : List (Val F)} {a : Except Err (Val F)} {b : Val F} : SumsTo t l a → SumsTo t (l ++ [b]) (step a (.ok b))
  | combine {l m : List (Val F)} {a b : Except Err (Val F)} : SumsTo t l a → SumsTo t m b → SumsTo t (l ++ m) (step a b)
  | perm {l m : List (Val F)} {a : Except Err (Val F)} : l.Perm m → SumsTo t l a → SumsTo t m a

/-- The sum as a number. -/
def total (l : List (Val F)) : Int := (l.map Val.asInt).sum

/-- Sum of the magnitudes. -/
def magnitude (l : List (Val F)) : Int := (l.map fun x => (x.asInt.natAbs : Int)).sum

/-- Largest number of the type of the accumulator, plus one. -/
def limit : ET → Int
  | .i32 => 2 ^ 31
  | _ => 2 ^ 63

end Scipp.ReduceType
