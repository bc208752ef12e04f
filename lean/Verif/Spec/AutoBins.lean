import Verif.Model.AutoBins

/-! # What it means that automatically determined bins and groups contain all data -/

namespace Scipp.AutoBins

variable {V : Type} [LinearOrder V]

/-- `x` lies in one of the bins. A bin includes its left edge but not its right edge. -/
def InBin (edges : List V) (x : V) : Prop :=
  ∃ (i : Nat) (a b : V), edges[i]? = some a ∧ edges[i + 1]? = some b ∧ a ≤ x ∧ x < b

/-- The values of a data array which are to be assigned to bins: those of the events if the data is binned, otherwise those of the
coordinate. -/
def arrayValues : Option (List V × Bool) → Option (List V) → List V
  | _, some events => events
  | some c, none => c.1
  | none, none => []

/-- The values which are to be assigned to bins. -/
def Source.values : Source V → List V
  | .var values => values
  | .array coord events => arrayValues coord events
  | .dataset coord items => items.flatMap (arrayValues coord)

/-- The coordinate outside of the bins, if there is one besides that of the events, has the edges of the existing bins, which contain the
events. -/
def Within (coord : Option (List V × Bool)) (events : List V) : Prop :=
  ∀ c, coord = some c → c.2 = true ∧ ∀ x ∈ events, (∃ a ∈ c.1, a ≤ x) ∧ ∃ b ∈ c.1, x < b

/-- What is required of the data. Dense data has no bin edges yet. In a dataset the largest value has to be in the last item, see
`C108_wrong_dataset_max`. -/
def Source.Regular : Source V → Prop
  | .var _ => True
  | .array coord (some events) => Within coord events
  | .array coord none => ∀ c, coord = some c → c.2 = false
  | .dataset none items => (∀ e ∈ items, e.isSome) ∧ ∃ last, items.getLast? = some (some last) ∧
      ∀ x ∈ (Source.dataset none items).values, ∃ y ∈ last, x ≤ y
  | .dataset (some c) items => ∀ e ∈ items, ∃ events, e = some events ∧ Within (some c) events

/-- All numbers of the object: those of the coordinate and those of the events. -/
def Source.numbers : Source V → List V
  | .var values => values
  | .array coord events => (coord.map (·.1)).getD [] ++ events.getD []
  | .dataset coord items => (coord.map (·.1)).getD [] ++ items.flatMap (·.getD [])

/-- All elements of the list lie in the range of the element type. -/
def InLimits (L : Limits V) (l : List V) : Prop := ∀ x ∈ l, L.lowest ≤ x ∧ x ≤ L.highest

/-- The limits of 64-bit integers. -/
def int64Limits : Limits Int := ⟨-2 ^ 63, 2 ^ 63 - 1⟩

/-- The limits of `double`. -/
def doubleLimits : Limits ℚ := ⟨-((2 - 1 / 2 ^ 52) * 2 ^ 1023), (2 - 1 / 2 ^ 52) * 2 ^ 1023⟩

end Scipp.AutoBins
