import Verif.Model.GroupArray
import Verif.Spec.GroupBy
import Verif.Spec.Masks
/-!
Vocabulary for statements about reductions of grouped arrays.
-/
namespace Scipp.GroupArray
variable {V W : Type}

/-- The unmasked elements at the positions `ps` along `dim`, in their order, of the row through `c`. -/
def unmaskedAt (a : MaskedArr V) (dim : Dim) (ps : List Int) (c : Dim → Int) : List V :=
  (ps.filter (fun j => !maskedAlong a.masks dim (upd c dim j))).map (fun j => a.data.val (upd c dim j))

/-- Groups as made by `groupby` for data with `n` positions: ranges within the data. -/
def GroupsOk (n : Int) (groups : List (List (Int × Int))) : Prop :=
  ∀ g ∈ groups, ∀ r ∈ g, 0 ≤ r.1 ∧ r.1 ≤ r.2 ∧ r.2 ≤ n

/-- The result has one slice per group along the dim of the key, which replaces the reduced dim; it is `f` of the unmasked elements of the
group; masks depending on the reduced dim are dropped, the others are kept. -/
def GroupsTo (a : MaskedArr V) (dim key : Dim) (groups : List (List (Int × Int))) (f : List V → W)
    (r : Except Err (MaskedArr W)) : Prop :=
  ∃ out, r = .ok out ∧ out.data.dims = a.data.dims.map (fun p => if p.1 = dim then (key, (groups.length : Int)) else p) ∧
    (∀ (c : Dim → Int) (g : Nat) (ranges : List (Int × Int)), groups[g]? = some ranges → c key = g →
      out.data.val c = f (unmaskedAt a dim (GroupBy.positions ranges) c)) ∧
    ∀ k arr, (∃ m, (k, m) ∈ out.masks ∧ m.arr = arr) ↔ (∃ m, (k, m) ∈ a.masks ∧ m.arr = arr ∧ dim ∉ Sizes.labels arr.dims)

/-- The grouping key does not clash with another dim of the data. -/
def KeyOk (a : MaskedArr V) (dim key : Dim) : Prop := key = dim ∨ key ∉ Sizes.labels a.data.dims

/-- All masks that depend on the reduced dim depend on no other dim. -/
def MasksAlong (masks : List (Dim × MaskVar)) (dim : Dim) : Prop :=
  ∀ p ∈ masks, dim ∈ Sizes.labels p.2.arr.dims → ∀ d ∈ Sizes.labels p.2.arr.dims, d = dim

end Scipp.GroupArray
