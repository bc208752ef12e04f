import Verif.Model.Dataset
import Verif.Spec.SizedDict
/-!
Vocabulary for statements about datasets.
-/
namespace Scipp

/-- The same dims with the same extents, in any order. -/
def SameSizes (a b : Sizes) : Prop := ∀ p, p ∈ a ↔ p ∈ b

/-- A well-formed data array: coords, masks and attrs fit the data (C35). -/
structure DArray.Ok (a : DArray) : Prop where
  data : a.data.view.WF
  coords : a.coords.Ok ∧ SameSizes a.coords.sizes a.data.dims
  masks : a.masks.Ok ∧ SameSizes a.masks.sizes a.data.dims
  attrs : a.attrs.Ok ∧ SameSizes a.attrs.sizes a.data.dims

/-- An item of a dataset fits the sizes of the dataset: it has exactly these dims, and its masks and attrs fit. -/
structure DItem.Fits (sizes : Sizes) (it : DItem) : Prop where
  data : it.data.view.WF
  dims : SameSizes it.data.dims sizes
  masks : it.masks.Ok ∧ SameSizes it.masks.sizes it.data.dims
  attrs : it.attrs.Ok ∧ SameSizes it.attrs.sizes it.data.dims

/-- A consistent dataset: names are unique, every item has the dims of the dataset, every coord fits them, and a dataset that is not yet valid
is empty and not read-only. The flag of the coords is not set if the dataset can be modified. -/
structure Dset.Ok (d : Dset) : Prop where
  coords : d.coords.Ok
  names : (d.items.map Prod.fst).Nodup
  items : ∀ p ∈ d.items, p.2.Fits d.coords.sizes
  flag : d.readonly = false → d.coords.readonly = false
  invalid : d.valid = false → d.coords.sizes = [] ∧ d.coords.items = [] ∧ d.items = [] ∧ d.readonly = false

/-- What is known about the arguments of an operation. -/
def DsetOp.Valid : DsetOp → Prop
  | .setCoord _ e => e.view.WF
  | .setData _ e _ => e.view.WF
  | .setDataArray _ a => a.Ok
  | .setDataInit _ e _ => e.view.WF
  | .setDataArrayInit _ a => a.Ok
  | .coordsSet _ e => e.view.WF
  | _ => True

/-- The coord `k` of the data array has other values than the coord of the dataset with the same alignment flag. -/
def Conflict (eqn : Entry → Entry → Bool) (d : Dset) (a : DArray) (k : Dim) : Prop :=
  ∃ x y, lookupEntry d.coords.items k = some x ∧ lookupEntry a.coords.items k = some y ∧ x.aligned = y.aligned ∧ eqn y x = false

/-- What can be said about the two comparisons of variables: `==` implies `equals_nan`, both are symmetric, and flags do not matter. -/
structure Comparisons (eq eqn : Entry → Entry → Bool) : Prop where
  stronger : ∀ x y, eq x y = true → eqn x y = true
  symm : ∀ x y, eqn x y = eqn y x
  flags : ∀ (x : Entry) (y : Entry), eqn { x with view := x.view.asConst } y = eqn x y

end Scipp
