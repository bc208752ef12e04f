import Verif.Model.View
import Verif.Spec.View
/-
Specification for operations on rows: the elements along one dim.
-/
namespace Scipp

/-- The `n` elements of `x` along `dim` at the position `c` of the other dims, in order. -/
def row {α : Type} (x : Var α) (dim : Dim) (n : Int) (c : Dim → Int) : List α := (List.range n.toNat).map fun (i : Nat) => x.elem (upd c dim i)

/-- What `std::sort` requires of a comparison: a strict weak ordering. -/
def StrictWeak {α : Type} (lt : α → α → Bool) : Prop :=
  (∀ a, lt a a = false) ∧ (∀ a b c, lt a b = true → lt b c = true → lt a c = true) ∧
  (∀ a b c, lt a b = false → lt b a = false → lt b c = false → lt c b = false → lt a c = false ∧ lt c a = false)

/-- What `std::sort` guarantees: given a strict weak ordering the result has the same elements, in order. -/
def SortsOk {α : Type} (sorter : (α → α → Bool) → List α → List α) : Prop :=
  ∀ lt l, StrictWeak lt → (sorter lt l).Perm l ∧ (sorter lt l).Pairwise fun a b => lt b a = false

end Scipp
