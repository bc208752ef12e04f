import Verif.Model.DropDim
import Verif.Spec.DatasetOps
/-!
What operations that drop a dim or change its extent are expected to do with coords, masks and attrs.
-/
namespace Scipp.DropDim
open Sizes

/-- The entries that do not depend on `dim`. -/
def independent (dim : Dim) (items : List (Dim × Entry)) : List (Dim × Entry) := items.filter fun p => decide (dim ∉ labels p.2.dims)

/-- What can be said about `copy`: dims do not change, nor does whether the elements are binned. -/
structure IsCopy (copy : Entry → Entry) : Prop where
  wf : ∀ e, e.view.WF → (copy e).view.WF
  dims : ∀ e, (copy e).dims = e.dims
  binned : ∀ e, (copy e).binned = e.binned

/-- The result of an operation that drops `dim` or changes its extent: new data, with those coords, masks and attrs that do not depend on `dim`. Coords and attrs are the same variables as before, masks are
copies. -/
structure Dropped (copy : Entry → Entry) (a : DArray) (dim : Dim) (z : Entry) (r : DArray) : Prop where
  ok : r.Ok
  data : r.data = z
  coords : r.coords.items = independent dim a.coords.items
  masks : r.masks.items = (independent dim a.masks.items).map fun p => (p.1, copy p.2)
  attrs : r.attrs.items = independent dim a.attrs.items
  writable : r.coords.readonly = false ∧ r.masks.readonly = false ∧ r.attrs.readonly = false

/-- A function that reduces the data along a dim: the dim is removed. -/
def Reduces (op : Entry → Dim → List (Dim × Entry) → Except Err Entry) : Prop :=
  ∀ e dim ms, e.view.WF → dim ∈ labels e.dims → ∃ z, op e dim ms = .ok z ∧ z.view.WF ∧ z.dims = e.dims.filter (·.1 ≠ dim)

/-- The entries with no dim of `dims`. -/
def disjoint (dims : Dims) (items : List (Dim × Entry)) : List (Dim × Entry) := items.filter fun p => decide (∀ x ∈ labels p.2.dims, x ∉ labels dims)

/-- The dim along which the events of a histogram for `dim` are: `dim` itself for binned data; otherwise the dim labelled by the coord, which must not be a bin-edge coord. -/
def EventsAlong (a : DArray) (dim ed : Dim) : Prop :=
  (a.data.binned = true ∧ ed = dim) ∨
  (a.data.binned = false ∧ ∃ e, lookupEntry a.coords.items dim = some e ∧ LabelsDim a.data.dims dim e.dims ed ∧ ∀ n, (dim, n) ∈ a.data.dims → (dim, n + 1) ∉ e.dims)

/-- Edges of `m` bins along `dim`, for data with the given dims. -/
structure EdgesFor (dims : Dims) (dim : Dim) (m : Int) (e : Entry) : Prop where
  wf : e.view.WF
  binned : e.binned = false
  along : (dim, m + 1) ∈ e.dims
  others : ∀ p ∈ e.dims, p.1 ≠ dim → p ∈ dims

/-- The coords after an operation that replaces the coord for `dim`. -/
def CoordReplaced (items : List (Dim × Entry)) (ed dim : Dim) (e : Entry) (r : SizedDict) : Prop :=
  ∀ k, lookupEntry r.items k = if k = dim then some e else lookupEntry (independent ed items) k

end Scipp.DropDim
