import Verif.Spec.Rebin
import Verif.Spec.Subspan
import Verif.Model.RebinVar
/-!
What rebinning data with several dims is expected to compute.
-/
namespace Scipp.Props
open Scipp Sizes Rebin
variable {K : Type} [Field K] [LinearOrder K]

/-- The counts that new bin `j` of a row should have, for edges in either direction: from every old bin the fraction of its counts given by the overlap of the bins. -/
def rebinnedRow (xnew xold data : List K) (j : Nat) : K :=
  ∑ i ∈ Finset.range (xold.length - 1), data.getD i 0 *
    (overlapLength (min (xold.getD i 0) (xold.getD (i + 1) 0)) (max (xold.getD i 0) (xold.getD (i + 1) 0))
        (min (xnew.getD j 0) (xnew.getD (j + 1) 0)) (max (xnew.getD j 0) (xnew.getD (j + 1) 0)) /
      |xold.getD (i + 1) 0 - xold.getD i 0|)

/-- Like `rebinnedRow` with the square of the fraction. -/
def rebinnedRowVariance (xnew xold data : List K) (j : Nat) : K :=
  ∑ i ∈ Finset.range (xold.length - 1), data.getD i 0 *
    (overlapLength (min (xold.getD i 0) (xold.getD (i + 1) 0)) (max (xold.getD i 0) (xold.getD (i + 1) 0))
        (min (xnew.getD j 0) (xnew.getD (j + 1) 0)) (max (xnew.getD j 0) (xnew.getD (j + 1) 0)) /
      |xold.getD (i + 1) 0 - xold.getD i 0|) ^ 2

/-- The `n` numbers `f` gives along `dim` at the position `c` of the other dims. -/
def rowOf (f : (Dim → Int) → K) (dim : Dim) (n : Int) (c : Dim → Int) : List K := (List.range n.toNat).map fun (i : Nat) => f (upd c dim i)

/-- Along `dim` the edges at every position of their other dims are strictly increasing. -/
def Rising (e : Edges K) (dim : Dim) (n : Int) : Prop :=
  ∀ c, InDims (e.x.view.dims.filter (·.1 ≠ dim)) c → ∀ i, 0 ≤ i → i + 1 < n → e.x.elem (upd c dim i) < e.x.elem (upd c dim (i + 1))

/-- Along `dim` the edges at every position of their other dims are strictly decreasing. -/
def Falling (e : Edges K) (dim : Dim) (n : Int) : Prop :=
  ∀ c, InDims (e.x.view.dims.filter (·.1 ≠ dim)) c → ∀ i, 0 ≤ i → i + 1 < n → e.x.elem (upd c dim (i + 1)) < e.x.elem (upd c dim i)

/-- Edges with `n` values along `dim` fit data with the given dims: they have no other dims than the data. -/
structure FitsData (e : Edges K) (dim : Dim) (n : Int) (dims : Dims) : Prop where
  wf : e.x.view.WF
  along : (dim, n) ∈ e.x.view.dims
  others : ∀ p ∈ e.x.view.dims, p.1 ≠ dim → p ∈ dims

/-- Data with `n > 0` bins along `dim` and edges `old` can be rebinned to the edges `new` with `m` bins: both have the same unit and no variances, their types are supported for every layout of the data, and
they are strictly monotonic in the same direction. -/
structure Rebinnable (v : Data K) (dim : Dim) (n m : Int) (old new : Edges K) : Prop where
  wf : v.x.view.WF
  valid : Dim.invalid ∉ labels v.x.view.dims
  along : (dim, n) ∈ v.x.view.dims
  some_bins : 0 < n
  dense : v.binned = false
  old_fits : FitsData old dim (n + 1) v.x.view.dims
  new_fits : FitsData new dim (m + 1) v.x.view.dims
  nonneg : 0 ≤ m
  unit : new.unit = old.unit
  plain : new.hasVariances = false ∧ old.hasVariances = false
  types : (new.type = .float64 ∧ old.type = .float64) ∨ (v.type = .float32 ∧ new.type = .float32 ∧ old.type = .float32)
  monotonic : (Rising old dim (n + 1) ∧ Rising new dim (m + 1)) ∨ (Falling old dim (n + 1) ∧ Falling new dim (m + 1))

/-- The dims with the length of `dim` replaced. -/
def resized (dims : Dims) (dim : Dim) (m : Int) : Dims := dims.map fun p => if p.1 = dim then (dim, m) else p

end Scipp.Props
