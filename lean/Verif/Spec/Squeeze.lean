import Verif.Spec.Dataset
/-!
Vocabulary for squeezing.
-/
namespace Scipp

/-- The dims to be removed: those asked for, or else all dims of length 1. -/
def squeezed (dims : Dims) : Option (List Dim) → List Dim
  | some l => l
  | none => (dims.filter fun p => p.2 = 1).map Prod.fst

/-- A variable squeezed along those of its dims of length 1 that are in `ds`: these are gone, everything else stays, and the elements are those
at position 0. Dims of another length stay even if they are in `ds`: these are the bin edges of a single bin. -/
def SqueezedTo (ds : List Dim) (v v' : View) : Prop :=
  v'.dims = v.dims.filter (fun p => decide (¬ (p.1 ∈ ds ∧ p.2 = 1))) ∧
  ∀ c, v'.addr c = v.addr (fun x => if x ∈ ds ∧ (x, 1) ∈ v.dims then 0 else c x)

/-- A coord that has no more meaning along the remaining dims: all its dims are squeezed, or it has edges along a squeezed dim, or it is named after a squeezed
dim it depends on and has no edges. -/
def LabelsSqueezed (sizes : Sizes) (key : Dim) (dims : Dims) (ds : List Dim) : Prop :=
  ∃ y ∈ ds, y ∈ Sizes.labels dims ∧
    ((∀ x ∈ Sizes.labels dims, x ∈ ds) ∨ EdgesAlong sizes dims y ∨ (key = y ∧ ∀ x, ¬ EdgesAlong sizes dims x))

/-- A dictionary with every entry squeezed: the same names in the same order, referring to the same objects. -/
def DictTo (ds : List Dim) (d d' : SizedDict) : Prop :=
  d'.items.map Prod.fst = d.items.map Prod.fst ∧
  ∀ k e, (k, e) ∈ d.items → ∃ e', (k, e') ∈ d'.items ∧ e'.obj = e.obj ∧ SqueezedTo ds e.view e'.view

/-- A data array with everything squeezed: it is well-formed, data, coords, masks and attrs are squeezed without copying the elements, and a coord
is aligned exactly if it was and still has a meaning. -/
structure ArrayTo (ds : List Dim) (a a' : DArray) : Prop where
  ok : a'.Ok
  data : a'.data.obj = a.data.obj ∧ a'.data.aligned = a.data.aligned ∧ a'.data.binned = a.data.binned ∧ SqueezedTo ds a.data.view a'.data.view
  coords : DictTo ds a.coords a'.coords
  masks : DictTo ds a.masks a'.masks
  attrs : DictTo ds a.attrs a'.attrs
  aligned : ∀ k e e', (k, e) ∈ a.coords.items → (k, e') ∈ a'.coords.items →
    (e'.aligned = true ↔ e.aligned = true ∧ ¬ LabelsSqueezed a.data.dims k e.dims ds)
  masksAligned : ∀ k e e', (k, e) ∈ a.masks.items → (k, e') ∈ a'.masks.items → e'.aligned = e.aligned
  attrsAligned : ∀ k e e', (k, e) ∈ a.attrs.items → (k, e') ∈ a'.attrs.items → e'.aligned = e.aligned

end Scipp
