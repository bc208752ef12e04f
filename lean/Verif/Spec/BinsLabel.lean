import Mathlib.Order.Defs.LinearOrder

/-!
# Vocabulary for C116
-/

namespace Scipp.BinsLabel.Spec

variable {β : Type} [LinearOrder β]

/-- Numbers before `b`, not NaN. -/
def before (b : β) : Option β → Bool
  | some v => decide (v < b)
  | none => false

/-- Numbers from `a` on, not NaN. -/
def onwards (a : β) : Option β → Bool
  | some v => decide (a ≤ v)
  | none => false

end Scipp.BinsLabel.Spec
