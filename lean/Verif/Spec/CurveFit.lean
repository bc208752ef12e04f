import Verif.Model.CurveFit
/-!
What a fit of every slice should be.
-/
namespace Scipp.CurveFit
open Scipp

/-- The position `q` with the indices along some dims taken from `c`. -/
def merge (ds : List Dim) (c q : Pos) : Pos := fun e => if e ∈ ds then c e else q e

/-- The elements of the slice at `c` which are not masked. -/
def pointsAt {V : Type} (a : Array V) (ds : List Dim) (c : Pos) : List Pos :=
  ((positions (a.dims.filter fun p => decide (p.1 ∉ ds))).map (merge ds c)).filter fun q => decide (∀ e ∈ a.masks, e.2.el q = false)

/-- `r` is the fit of the slice at `c`: of the coords and values of all its elements which are not masked, starting from the guesses at `c`, with the bounds at `c`. With fewer points than parameters it is NaN. -/
def IsFit {V : Type} [Zero V] (solve : Solver V) (coords : List (Nat × Col V)) (a : Array V) (p0 : List (Nat × Col V)) (bounds : List (Nat × Col V × Col V)) (ds : List Dim) (c : Pos)
    (r : Option (List V × List (List V))) : Prop :=
  ((pointsAt a ds c).length < p0.length ∧ r = none) ∨
  (p0.length ≤ (pointsAt a ds c).length ∧ (∀ f, a.var = some f → ∀ q ∈ pointsAt a ds c, f q ≠ 0) ∧
    ∃ s, solve ((pointsAt a ds c).map fun q => (coords.map (fun e => e.2.el q), a.val q)) (p0.map fun e => e.2.el c) (a.var.map fun f => (pointsAt a ds c).map f)
      (bounds.map fun e => (e.2.1.el c, e.2.2.el c)) = .ok s ∧ r = some s)

/-- Elements depend on the dims only. -/
def Col.WF {α : Type} (v : Col α) : Prop := ∀ c c' : Pos, (∀ p ∈ v.dims, c p.1 = c' p.1) → v.el c = v.el c'

/-- Everything depends on its dims only. -/
structure WF {V : Type} (coords : List (Nat × Col V)) (a : Array V) (p0 : List (Nat × Col V)) (bounds : List (Nat × Col V × Col V)) : Prop where
  dims : (a.dims.map (·.1)).Nodup
  coords : ∀ e ∈ coords, e.2.WF
  masks : ∀ e ∈ a.masks, e.2.WF
  p0 : ∀ e ∈ p0, e.2.WF
  bounds : ∀ e ∈ bounds, e.2.1.WF ∧ e.2.2.WF

/-- The number of positions. -/
def volume (dims : List (Dim × Nat)) : Nat := (dims.map (·.2)).prod

/-- The place of a position in memory, the last dim fastest. -/
def flat : List (Dim × Nat) → Pos → Nat
  | [], _ => 0
  | (d, _) :: rest, c => c d * volume rest + flat rest c

/-- A position lies inside. -/
def Inside (dims : List (Dim × Nat)) (c : Pos) : Prop := ∀ p ∈ dims, c p.1 < p.2

end Scipp.CurveFit
