import Verif.Model.BinTable
import Verif.Spec.MultiAxis
import Verif.Spec.Binning
/-
What binning is to do, for C78.
-/
namespace Scipp.BinTable
open Spec Binning
variable {α : Type} [LinearOrder α] {γ : Type} [DecidableEq γ] {E : Type}

/-- The event belongs to bin or group `i` along the dimension. -/
def Axis.Has (i : Nat) (e : E) : Axis α γ E → Prop
  | .bin edges _ _ coord => InBin edges i (coord e)
  | .group labels coord => labels[i]? = some (coord e)
  | .groupInt labels coord => labels[i]? = some (coord e)
  | .existing _ position => position e = i

/-- Edges are sorted and there are at least two, with a usable guess if they are taken to be a linspace; labels are different; the
events are within the existing dimension. -/
def Axis.Ok (events : List E) : Axis α γ E → Prop
  | .bin edges linspace guess _ => Ascending edges ∧ 2 ≤ edges.length ∧ (linspace = true → GuessOk edges guess)
  | .group labels _ => labels.Nodup
  | .groupInt labels _ => labels.Nodup
  | .existing n position => ∀ e ∈ events, position e < n

/-- The positions of the elements of an array of the given shape in row-major order. -/
def positions : List Nat → List (List Nat)
  | [] => [[]]
  | n :: ns => (List.range n).flatMap fun i => (positions ns).map (i :: ·)

/-- The event belongs to the output bin at a position. -/
def Belongs (axes : List (Axis α γ E)) (position : List Nat) (e : E) : Prop := List.Forall₂ (fun a i => a.Has i e) axes position

end Scipp.BinTable
