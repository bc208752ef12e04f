import Verif.Spec.BinIndex
import Mathlib.Algebra.BigOperators.Group.List.Basic
/-!
Vocabulary for statements about histograms.
-/
namespace Scipp.Spec
variable {α : Type} [LinearOrder α]

instance (edges : List α) (i : Nat) (x : Option α) : Decidable (InBin edges i x) :=
  match x with
  | none => isFalse (by rintro ⟨_, _, _, h, _⟩; cases h)
  | some v =>
    match h1 : edges[i]?, h2 : edges[i + 1]? with
    | some lo, some hi =>
      if h : lo ≤ v ∧ v < hi then isTrue ⟨v, lo, hi, rfl, h1, h2, h.1, h.2⟩
      else isFalse (by
        rintro ⟨_, _, _, e, g1, g2, g3, g4⟩
        cases e
        rw [h1] at g1; rw [h2] at g2
        cases g1; cases g2
        exact h ⟨g3, g4⟩)
    | none, _ => isFalse (by rintro ⟨_, _, _, _, g, _⟩; rw [h1] at g; cases g)
    | _, none => isFalse (by rintro ⟨_, _, _, _, _, g, _⟩; rw [h2] at g; cases g)

/-- Sum of the weights of the events satisfying `p`. -/
def weightWhere {W : Type} [AddCommMonoid W] (p : Option α → Prop) [DecidablePred p] (events : List (Option α × W)) : W :=
  ((events.filter fun e => decide (p e.1)).map (·.2)).sum

/-- `x` is a number in `[lo, hi)`. -/
def InRange (lo hi : α) (x : Option α) : Prop := ∃ v, x = some v ∧ lo ≤ v ∧ v < hi

instance (lo hi : α) (x : Option α) : Decidable (InRange lo hi x) :=
  match x with
  | none => isFalse (by rintro ⟨_, h, _⟩; cases h)
  | some v =>
    if h : lo ≤ v ∧ v < hi then isTrue ⟨v, rfl, h.1, h.2⟩
    else isFalse (by rintro ⟨_, e, h1, h2⟩; cases e; exact h ⟨h1, h2⟩)

/-- The guess of `get_bin` is at most one off the bin containing the value. -/
def GuessOk (edges : List α) (guess : α → Int) : Prop :=
  ∀ v i, InBin edges i (some v) → (i : Int) - 1 ≤ guess v ∧ guess v ≤ i + 1

end Scipp.Spec
