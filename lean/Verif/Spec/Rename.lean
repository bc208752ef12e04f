import Verif.Model.Rename
import Verif.Spec.Dataset
/-!
Vocabulary for statements about renaming.
-/
namespace Scipp
open Sizes

/-- What becomes of a label: each pair in turn replaces its first part by its second. -/
def relabel (names : List (Dim × Dim)) (x : Dim) : Dim := names.foldl (fun x r => if x = r.1 then r.2 else x) x

/-- The pairs can be applied one after another to a set of labels: each replaces an existing label by one that does not exist (or by itself). -/
def Renamable : List Dim → List (Dim × Dim) → Prop
  | _, [] => True
  | l, (f, t) :: names => f ∈ l ∧ (t = f ∨ t ∉ l) ∧ Renamable (l.map fun x => if x = f then t else x) names

/-- No label of the entries outside of `l` is a new label. -/
def NoClash (l : List Dim) (names : List (Dim × Dim)) (d : SizedDict) : Prop := ∀ q ∈ d.items, ∀ r ∈ names, r.2 ∈ labels q.2.dims → r.2 ∈ l

/-- Dims with other labels. -/
def relabelDims (names : List (Dim × Dim)) (dims : Dims) : Dims := dims.map fun p => (relabel names p.1, p.2)

/-- A variable with other labels; memory, strides, offset and flags stay. -/
def Entry.relabeled (names : List (Dim × Dim)) (e : Entry) : Entry := { e with view := { e.view with dims := relabelDims names e.view.dims } }

/-- Entries with other labels (but the same keys). -/
def relabelItems (names : List (Dim × Dim)) (l : List (Dim × Entry)) : List (Dim × Entry) := l.map fun q => (q.1, q.2.relabeled names)

/-- A data array with other labels. -/
def DArray.relabeled (names : List (Dim × Dim)) (a : DArray) : DArray :=
  ⟨a.data.relabeled names, ⟨relabelDims names a.data.dims, relabelItems names a.coords.items, false⟩,
    ⟨relabelDims names a.data.dims, relabelItems names a.masks.items, false⟩, ⟨relabelDims names a.data.dims, relabelItems names a.attrs.items, false⟩⟩

/-- An item with other labels. -/
def DItem.relabeled (names : List (Dim × Dim)) (it : DItem) : DItem :=
  ⟨it.data.relabeled names, ⟨relabelDims names it.data.dims, relabelItems names it.masks.items, false⟩,
    ⟨relabelDims names it.data.dims, relabelItems names it.attrs.items, false⟩⟩

/-- A dataset with other labels. -/
def Dset.relabeled (names : List (Dim × Dim)) (d : Dset) : Dset :=
  ⟨⟨relabelDims names d.coords.sizes, relabelItems names d.coords.items, false⟩, d.items.map (fun q => (q.1, q.2.relabeled names)), false, true⟩

/-- The pairs that undo a renaming. -/
def undo (names : List (Dim × Dim)) : List (Dim × Dim) := (names.map fun r => (r.2, r.1)).reverse

end Scipp
