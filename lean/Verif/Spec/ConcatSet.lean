import Verif.Model.ConcatSet
import Verif.Spec.Concat
import Verif.Spec.Dataset
/-!
Vocabulary for statements about the concatenation of datasets.
-/
namespace Scipp.Concat
open Scipp
variable {V : Type}

/-- Masks or attrs of an item fit its data. -/
def ItemsOk (sizes : Sizes) (items : List (Dim × CVar V)) : Prop :=
  (∀ p ∈ items, p.2.arr.Ok ∧ Fits sizes p.2.dims) ∧ (items.map Prod.fst).Nodup

/-- A consistent dataset: coords fit the sizes and all items have these dims, in any order (C53). -/
structure FSet.Ok (s : FSet V) : Prop where
  valid : s.valid = true
  wf : Sizes.WF s.sizes
  coords : ItemsOk s.sizes s.coords
  itemKeys : (s.items.map Prod.fst).Nodup
  data : ∀ p ∈ s.items, p.2.data.arr.Ok ∧ SameSizes s.sizes p.2.data.dims
  masks : ∀ p ∈ s.items, ItemsOk s.sizes p.2.masks
  attrs : ∀ p ∈ s.items, ItemsOk s.sizes p.2.attrs

/-- `n` is the name of an item in all datasets. -/
def CommonItem (dss : List (FSet V)) (n : Dim) : Prop := ∀ s ∈ dss, n ∈ s.items.map Prod.fst

/-- `das` are the data arrays with name `n`, one from each dataset. -/
def Named (n : Dim) (dss : List (FSet V)) (das : List (FArray V)) : Prop := List.Forall₂ (fun s a => s.get n = .ok a) dss das

end Scipp.Concat
