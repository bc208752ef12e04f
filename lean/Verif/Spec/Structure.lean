import Verif.Spec.View
/-!
Vocabulary for statements about structured variables.
-/
namespace Scipp

/-- Component `i` of the structure, with `N` components, that a view into an array of structures has at coordinates `c`: the memory is an array
of structures stored one after the other. -/
def component {α : Type} (N : Int) (v : View) (mem : Int → α) (c : Dim → Int) (i : Int) : α := mem (N * v.addr c + i)

/-- `pick` chooses for every address of the view (and for no other address) coordinates within the dims with this address. -/
def Picks (v : View) (pick : Int → Option (Dim → Int)) : Prop :=
  (∀ a c, pick a = some c → InDims v.dims c ∧ v.addr c = a) ∧ ∀ c, InDims v.dims c → pick (v.addr c) ≠ none

end Scipp
