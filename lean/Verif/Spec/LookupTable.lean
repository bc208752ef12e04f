import Verif.Model.LookupTable

/-! # Points of a table -/

namespace Scipp.LookupTable

variable {α W : Type} [LinearOrder α]

/-- The point with this index is masked. -/
def Masked (t : Table α W) (i : Nat) : Prop := ∃ m ∈ t.masks, m[i]? = some true

/-- The point with index `i` is the last one not after `x`. -/
def LastBefore (xs : List α) (x : α) (i : Nat) : Prop :=
  ∃ a, xs[i]? = some a ∧ a ≤ x ∧ ∀ (j : Nat) (b : α), i < j → xs[j]? = some b → x < b

/-- The outcome of a lookup that finds the value with index `i`. -/
def Gives (t : Table α W) (fill : W) (i : Nat) (r : Except Err W) : Prop :=
  (Masked t i → r = .ok fill) ∧ (¬ Masked t i → ∀ v, t.values[i]? = some v → r = .ok v)

end Scipp.LookupTable
