import Verif.Model.NdFilter
/-!
Filters in terms of labelled dims.
-/
namespace Scipp.NdFilter
open Scipp

/-- The value of the data at a position given by labels. -/
def Arr.at {V : Type} (x : Arr V) (c : Dim → Int) : V := x.values (x.dims.map c)

/-- The size of the footprint along a dim. -/
def Footprint.size (f : Footprint) (d : Dim) : Nat := ((f.sizes.find? (fun e => e.1 == d)).map (·.2)).getD 0

/-- The footprint at a position given by labels: inside, and true. -/
def Footprint.Covers (f : Footprint) (o : Dim → Nat) : Prop := (∀ e ∈ f.sizes, o e.1 < e.2) ∧ f.values (f.sizes.map fun e => o e.1) = true

/-- The labelled positions agree along the dims. -/
def Agree (dims : List Dim) (o o' : Dim → Nat) : Prop := ∀ d ∈ dims, o d = o' d

/-- The labelled positions are those which the footprint covers, each once. -/
structure Window (dims : List Dim) (f : Footprint) (os : List (Dim → Nat)) : Prop where
  covered : ∀ o ∈ os, f.Covers o
  all : ∀ o, f.Covers o → ∃ o' ∈ os, Agree dims o' o
  once : os.Pairwise fun o o' => ¬ Agree dims o o'

/-- Where a labelled position of the footprint is when its middle is at `c`, shifted by the origin. -/
def shifted (f : Footprint) (origin : Dim → ℚ) (c : Dim → Int) (o : Dim → Nat) (d : Dim) : Int := c d + o d - (f.size d / 2 : Nat) - FloatBins.truncate (origin d)

end Scipp.NdFilter
