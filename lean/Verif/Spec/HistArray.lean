import Verif.Spec.Histogram
import Verif.Spec.Subspan
import Verif.Spec.Masks
import Verif.Model.HistArray
/-!
What histogramming data with several dims is expected to compute.
-/
namespace Scipp.Props
open Scipp Sizes Spec Hist
variable {α : Type} [LinearOrder α] {W : Type} [AddCommMonoid W]

/-- The events along `dim` at the position `c` of the other dims: coordinate and weight, which is zero for masked events. -/
def eventsAlong (coord : Var (Option α)) (data : Var W) (masks : List (Dim × MaskVar)) (dim : Dim) (n : Int) (c : Dim → Int) : List (Option α × W) :=
  (List.range n.toNat).map fun (i : Nat) => (coord.elem (upd c dim i), if maskedAlong masks dim (upd c dim i) then 0 else data.elem (upd c dim i))

/-- Bin edges with `m` bins along their inner dim `dim`, which are sorted at every position of the other dims, where the other dims are from `dims`. If the edges are found to be equidistant, then the
guess made from this is at most one off. -/
structure EdgesOk (lin : List α → Bool) (guess : List α → α → Int) (edges : Var α) (dim : Dim) (m : Int) (dims : Dims) : Prop where
  wf : edges.view.WF
  inner : Dims.inner edges.view.dims = dim
  valid : dim ≠ Dim.invalid
  along : (dim, m + 1) ∈ edges.view.dims
  nonneg : 0 ≤ m
  others : ∀ p ∈ edges.view.dims, p.1 ≠ dim → p ∈ dims
  sorted : ∀ c, InDims (edges.view.dims.filter (·.1 ≠ dim)) c → Ascending (row edges dim (m + 1) c)
  guess : ∀ c, InDims (edges.view.dims.filter (·.1 ≠ dim)) c → lin (row edges dim (m + 1) c) = true → GuessOk (row edges dim (m + 1) c) (guess (row edges dim (m + 1) c))

/-- Masks with dims of the data. -/
def MasksOk (masks : List (Dim × MaskVar)) (dims : Dims) : Prop := ∀ p ∈ masks, p.2.arr.Ok ∧ p.2.Plain ∧ ∀ q ∈ p.2.arr.dims, q ∈ dims

/-- Data with a coord for its elements along `eventDim`, to be histogrammed with edges for `dim`. The coord has one value per element (it is not a bin-edge coord). Either it is one-dimensional, or its name
is that of its dim. If the data depends on `dim` then `dim` is the dim of the events. -/
structure Countable (data : Var W) (eventDim : Dim) (n : Int) (coord : Var (Option α)) (dim : Dim) : Prop where
  wf : data.view.WF
  valid : Dim.invalid ∉ labels data.view.dims
  along : (eventDim, n) ∈ data.view.dims
  coord_wf : coord.view.WF
  coord_along : (eventDim, n) ∈ coord.view.dims
  coord_fits : ∀ p ∈ coord.view.dims, p ∈ data.view.dims
  coord_dim : coord.view.dims.length = 1 ∨ eventDim = dim
  once : dim ∈ labels data.view.dims → dim = eventDim

/-- The events in the bin at position `c`: coordinate and weight, which is zero for masked events. -/
def eventsIn (b : Binned α W) (c : Dim → Int) : List (Option α × W) :=
  (intRange (b.indices.val c).1 (b.indices.val c).2).map fun i => (b.coord.x.elem (fun _ => i), if maskedAlong b.masks b.dim (fun _ => i) then 0 else b.data.elem (fun _ => i))

/-- The events contributing to a histogram at position `c`: if the bins depend on `dim`, the events from all bins along `dim` except masked ones, otherwise those in the bin at `c`. -/
def eventsAt (b : Binned α W) (masks : List (Dim × MaskVar)) (dim : Dim) (c : Dim → Int) : List (Option α × W) :=
  match Sizes.at? b.indices.dims dim with
  | .ok n => (intRange 0 n).flatMap fun j => if maskedAlong masks dim (upd c dim j) then [] else eventsIn b (upd c dim j)
  | .error _ => eventsIn b c

/-- Well-formed binned data: a buffer with `n` rows and bins inside of it. -/
structure BinnedOk (b : Binned α W) (n : Int) : Prop where
  indices : b.indices.Ok
  inside : ∀ c, InDims b.indices.dims c → 0 ≤ (b.indices.val c).1 ∧ (b.indices.val c).1 ≤ (b.indices.val c).2 ∧ (b.indices.val c).2 ≤ n
  valid : b.dim ≠ Dim.invalid
  data : b.data.view.WF ∧ b.data.view.dims = [(b.dim, n)]
  coord : b.coord.x.view.WF ∧ b.coord.x.view.dims = [(b.dim, n)]
  masks : MasksOk b.masks [(b.dim, n)]
  data_adjacent : ∀ i, b.data.view.addr (fun _ => i) = b.data.view.addr (fun _ => 0) + i
  coord_adjacent : ∀ i, b.coord.x.view.addr (fun _ => i) = b.coord.x.view.addr (fun _ => 0) + i

end Scipp.Props
