import Verif.Model.View
import Verif.Spec.Sizes
/-!
Vocabulary for statements about views.
-/
namespace Scipp

/-- Structural well-formedness of a view: unique labels, non-negative extents, one
non-negative stride per dimension. -/
def View.WF (v : View) : Prop :=
  Sizes.WF v.dims ∧ v.strides.length = v.dims.length ∧ ∀ s ∈ v.strides, 0 ≤ s

/-- `c` assigns every dimension a coordinate within its extent. -/
def InDims (s : Dims) (c : Dim → Int) : Prop := ∀ d n, (d, n) ∈ s → 0 ≤ c d ∧ c d < n

/-- Change coordinate `d` to `x`. -/
def upd (c : Dim → Int) (d : Dim) (x : Int) : Dim → Int := fun e => if e = d then x else c e

/-- All elements of the view lie in a buffer of length `n`. -/
def View.InBounds (v : View) (n : Int) : Prop :=
  ∀ c, InDims v.dims c → 0 ≤ v.addr c ∧ v.addr c < n

/-- Different coordinates refer to different buffer elements. -/
def View.Distinct (v : View) : Prop :=
  ∀ c c', InDims v.dims c → InDims v.dims c' → v.addr c = v.addr c' →
    ∀ d ∈ Sizes.labels v.dims, c d = c' d

/-- Row-major position of the coordinates of the listed dimensions (the last one
varies fastest), by Horner's rule. -/
def position (s : Dims) (c : Dim → Int) : Int := s.foldl (fun acc p => acc * p.2 + c p.1) 0

end Scipp
