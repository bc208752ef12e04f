import Verif.Model.Domains
import Mathlib.Order.Defs.LinearOrder

/-! # The step function given by a histogram -/

namespace Scipp.Domains

variable {V X : Type} [LinearOrder X]

/-- The histogram has the value `v` at `x`: `x` lies in a bin with this value. -/
def At (values : List V) (edges : List X) (x : X) (v : V) : Prop :=
  ∃ (i : Nat) (a b : X), edges[i]? = some a ∧ edges[i + 1]? = some b ∧ values[i]? = some v ∧ a ≤ x ∧ x < b

end Scipp.Domains
