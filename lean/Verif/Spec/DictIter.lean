import Verif.Model.DictIter
/-!
Vocabulary for statements about iterating over a dict that is being modified.
-/
namespace Scipp.DictIter
open Scipp
variable {K V : Type} [DecidableEq K]

/-- The contents. -/
def Mem.items (m : Mem K V) : List (K × V) := m.keys.elems.zip m.values.elems

/-- Number of items. -/
def Mem.size (m : Mem K V) : Nat := m.keys.elems.length

/-- As many keys as values, in vectors of the same capacity. -/
def Mem.Good (m : Mem K V) : Prop :=
  m.keys.elems.length = m.values.elems.length ∧ m.keys.cap = m.values.cap ∧ m.keys.elems.length ≤ m.keys.cap

/-- The state of the dict when the `i`-th item (from 0) is visited. -/
def stateAt (m : Mem K V) (bodies : List (List (MOp K V))) (i : Nat) : Mem K V := applyAll m (bodies.take i).flatten

/-- The vector of keys is not put at address `a`. -/
def MOp.avoids (a : Nat) : MOp K V → Prop
  | .insertOrAssign _ _ ka _ => ka ≠ a
  | _ => True

/-- No memory allocated during the loop has the address `a`. -/
def Avoids (a : Nat) (bodies : List (List (MOp K V))) : Prop := ∀ body ∈ bodies, ∀ op ∈ body, op.avoids a

/-- The operation is the assignment of a value to a key in `ks`. -/
def MOp.assigns (ks : List K) : MOp K V → Prop
  | .insertOrAssign k _ _ _ => k ∈ ks
  | _ => False

end Scipp.DictIter
