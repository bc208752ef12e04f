import Verif.Model.Sizes
/-!
Vocabulary for statements about dimension containers.
-/
namespace Scipp.Sizes

/-- Labels unique, extents non-negative. -/
def WF (s : Sizes) : Prop := (labels s).Nodup ∧ ∀ p ∈ s, 0 ≤ p.2

end Scipp.Sizes
