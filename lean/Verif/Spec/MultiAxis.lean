import Verif.Model.MultiAxis
import Verif.Spec.Histogram
/-!
What it means for an event to belong to a bin along one axis, and the row-major position of bins along several axes.
-/
namespace Scipp.Spec
variable {α : Type} [LinearOrder α] {γ : Type} [DecidableEq γ]

/-- `r` is the bin (group, existing bin) the event belongs to along the axis, `none` if it belongs to none. -/
def Assigned (a : AxisAction α γ) (r : Option Nat) : Prop :=
  match a with
  | .bin edges _ _ x => ∀ i : Nat, r = some i ↔ InBin edges i x
  | .group labels x => ∀ i : Nat, r = some i ↔ labels[i]? = some x
  | .groupInt labels x => ∀ i : Nat, r = some i ↔ labels[i]? = some x
  | .existing _ position => ∃ i : Nat, r = some i ∧ position = i

/-- Requirements on the arguments: sorted edges with a usable guess, distinct labels, a position in range. -/
def Valid (a : AxisAction α γ) : Prop :=
  match a with
  | .bin edges linspace guess _ => Ascending edges ∧ edges ≠ [] ∧ (linspace = true → GuessOk edges guess)
  | .group labels _ => labels.Nodup
  | .groupInt labels _ => labels.Nodup
  | .existing nbin position => 0 ≤ position ∧ position < nbin

/-- Row-major position by Horner's rule, `-1` if the event belongs to no bin along some axis. Each axis is given by its extent and the
bin of the event. -/
def combineAxes : List (Int × Option Nat) → Int → Int
  | [], acc => acc
  | (_, none) :: _, _ => -1
  | (n, some i) :: rest, acc => combineAxes rest (acc * n + i)

end Scipp.Spec
