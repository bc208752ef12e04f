import Verif.Model.DatasetOps
import Verif.Spec.Dataset
/-!
Vocabulary for statements about operations with datasets.
-/
namespace Scipp.DatasetOps
open Sizes

/-- Names of the items. -/
def names (d : Dset) : List Dim := d.items.map Prod.fst

/-- What an item of the dataset sees under the name of a coord: coords with a dim the items do not have are hidden, and what is seen cannot be modified. -/
def visible (d : Dset) (k : Dim) : Option Entry :=
  match lookupEntry d.coords.items k with
  | none => none
  | some e => if ∀ x ∈ labels e.dims, x ∈ labels d.coords.sizes then some { e with view := e.view.asConst } else none

/-- What a data array contributes to an item of a dataset. -/
def itemOf (a : DArray) : DItem := ⟨a.data, a.masks, a.attrs⟩

/-- What is assumed of the parts of an operation: the dims of the result are those of both operands, masks of the result are variables, copies of masks have the
same names and dims, and variables compare equal with themselves (which `equals_nan` does). -/
structure BinaryOp.Regular (op : BinaryOp) : Prop where
  data : ∀ x y z, x.view.WF → y.view.WF → op.data x y = .ok z → z.view.WF ∧ ∀ p, p ∈ z.dims ↔ p ∈ x.dims ∨ p ∈ y.dims
  masks : ∀ x y z, (∀ p ∈ x, p.2.view.WF) → (∀ p ∈ y, p.2.view.WF) → op.masks x y = .ok z → ∀ p ∈ z, p.2.view.WF
  copyMasks : ∀ x, (op.copyMasks x).map Prod.fst = x.map Prod.fst ∧
    ((∀ p ∈ x, p.2.view.WF) → ∀ p ∈ op.copyMasks x, p.2.view.WF ∧ ∃ q ∈ x, p.2.dims = q.2.dims ∧ p.2.binned = q.2.binned)
  refl : ∀ x, op.eqn x x = true

/-- Masks and attrs of the items have no other dims than the dataset. -/
def OwnDims (d : Dset) : Prop := ∀ p ∈ d.items, (∀ q ∈ p.2.masks.items, ∀ x ∈ labels q.2.dims, x ∈ labels d.coords.sizes) ∧
  ∀ q ∈ p.2.attrs.items, ∀ x ∈ labels q.2.dims, x ∈ labels d.coords.sizes

/-- The coords do not contradict each other: where both have a coord with the same flag, the values agree. -/
def Agree (eqn : Entry → Entry → Bool) (c c' : List (Dim × Entry)) : Prop :=
  ∀ k x y, lookupEntry c k = some x → lookupEntry c' k = some y → x.aligned = y.aligned → eqn y x = true

/-- The coord of the first data array that has one. -/
def firstCoord (l : List (Dim × DArray)) (k : Dim) : Option Entry := l.findSome? fun p => lookupEntry p.2.coords.items k

/-- The dataset consists of the given data arrays, in this order: data, masks and attrs of the items are theirs, and the coords are the coords of each of them. -/
structure ConsistsOf (d : Dset) (ns : List Dim) (r : Dim → DArray) : Prop where
  ok : d.Ok
  usable : d.readonly = false ∧ d.valid = true
  items : d.items = ns.map fun n => (n, itemOf (r n))
  dims : ∀ n ∈ ns, SameSizes (r n).data.dims d.coords.sizes
  coords : ∀ n ∈ ns, ∀ k, lookupEntry d.coords.items k = lookupEntry (r n).coords.items k

/-- What can be said about `equals_nan`: it is reflexive and symmetric, and flags do not matter. -/
structure Comparison (eqn : Entry → Entry → Bool) : Prop where
  refl : ∀ x, eqn x x = true
  symm : ∀ x y, eqn x y = eqn y x
  flags : ∀ (x : Entry) (y : Entry), eqn { x with view := x.view.asConst } y = eqn x y

/-- The coords a dataset adds to the result of `merge` together with its items: those the items see, if there are any items. -/
def own (d : Dset) (k : Dim) : Option Entry := if d.items = [] then none else visible d k

end Scipp.DatasetOps
