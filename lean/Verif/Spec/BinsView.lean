import Verif.Model.BinsView
import Mathlib.Data.List.Basic
import Mathlib.Data.List.Forall2

/-! Vocabulary for C93: what a user expects of the contents of bins. -/

namespace Scipp.BinsView

/-- `ys` are the entries of `xs` from `p.1` up to but not including `p.2`. -/
def Holds {V : Type} (xs : List V) (p : Nat × Nat) (ys : List V) : Prop :=
  ys.length = p.2 - p.1 ∧ ∀ i, i < p.2 - p.1 → ys[i]? = xs[p.1 + i]?

/-- Reading the binned variable works and gives, bin by bin, the entries of `xs` in the ranges
`idx`. -/
def Shows {V : Type} (c : Column V) (idx : List (Nat × Nat)) (xs : List V) : Prop :=
  ∃ vs, c.values = .ok vs ∧ List.Forall₂ (Holds xs) idx vs

/-- The ranges of the bins lie within a table of `n` events. -/
def Within (idx : List (Nat × Nat)) (n : Nat) : Prop :=
  ∀ p ∈ idx, p.1 ≤ p.2 ∧ p.2 ≤ n

/-- No event is both in a bin of `a` and in a bin of `b`. -/
def Apart (a b : List (Nat × Nat)) : Prop :=
  ∀ p ∈ a, ∀ q ∈ b, p.2 ≤ q.1 ∨ q.2 ≤ p.1

/-- `xs` and `ys` have the same entries except possibly for events in bins of `idx`. -/
def SameOutside {V : Type} (idx : List (Nat × Nat)) (xs ys : List V) : Prop :=
  ∀ i, (∀ p ∈ idx, ¬(p.1 ≤ i ∧ i < p.2)) → xs[i]? = ys[i]?

end Scipp.BinsView
