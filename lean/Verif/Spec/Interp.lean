import Verif.Model.Interp
/-!
What an interpolation is made of.
-/
namespace Scipp.Interp
open Scipp

/-- Some mask which depends on the dim masks the point. -/
def Hidden (a : Arr) (d : Dim) (i : Nat) : Prop := ∃ m ∈ a.masks, d ∈ m.dims ∧ m.masked (fun _ => i) = true

/-- The indices of the points used, in order: those which no mask hides. -/
structure Used (a : Arr) (d : Dim) (is : List Nat) : Prop where
  all : ∀ i, i ∈ is ↔ i < a.size d ∧ ¬ Hidden a d i
  ordered : is.Pairwise (· < ·)

/-- The coord `x` is the one for the dim: it has its name and no other dims. -/
def IsCoord (a : Arr) (d : Dim) (x : Coord) : Prop := a.coords.find? (fun y => y.name == d) = some x ∧ x.dims = [d] ∧ x.lens = [a.size d]

/-- The coord of the new points at which values are wanted: the points, or the middle between neighbours. -/
def IsNew (p : Points) (mid : Bool) (i : Nat) (v : ℚ) : Prop :=
  (mid = false → v = p.values i) ∧ (mid = true → v = (p.values i + p.values (i + 1)) / 2)

end Scipp.Interp
