import Verif.Model.Dict
/-!
What a history of dictionary operations means, without mentioning the dictionary: the value last
assigned to a key, and the time since when the key is present.
-/
namespace Scipp.Spec
variable {K V : Type} [DecidableEq K]

/-- The value last assigned to `k`, if `k` was not removed since. -/
def lastValue (k : K) (ops : List (DictOp K V)) : Option V :=
  ops.foldl (fun r op => match op with
    | .insertOrAssign k' v => if k' = k then some v else r
    | .erase k' => if k' = k then none else r
    | .clear => none) none

/-- Effect of an operation on the number of operations so far and the time since when `k` is present. -/
def sinceStep (k : K) (r : Nat × Option Nat) : DictOp K V → Nat × Option Nat
  | .insertOrAssign k' _ => (r.1 + 1, if k' = k then some (r.2.getD r.1) else r.2)
  | .erase k' => (r.1 + 1, if k' = k then none else r.2)
  | .clear => (r.1 + 1, none)

/-- The position in the history of the first insertion of `k` since it was last absent. -/
def presentSince (k : K) (ops : List (DictOp K V)) : Option Nat := (ops.foldl (sinceStep k) (0, none)).2

end Scipp.Spec
