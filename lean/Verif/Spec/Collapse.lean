import Verif.Model.Collapse
import Verif.Spec.View
import Mathlib.Data.List.Forall2

/-! # What it means to take all slices -/

namespace Scipp.Collapse

/-- Text with a separator between the pieces. -/
def joined (sep : Char) : List (List Char) → List Char
  | [] => []
  | [t] => t
  | t :: rest => t ++ sep :: joined sep rest

/-- The text for the indices along some dims: "x:0-y:12". -/
def text (name : Dim → List Char) (idx : List (Dim × Nat)) : List Char :=
  joined '-' (idx.map fun p => name p.1 ++ ':' :: (toString p.2).toList)

/-- One index within the extent for each of these dims. -/
def Indices (dims : List (Dim × Int)) (idx : List (Dim × Nat)) : Prop :=
  List.Forall₂ (fun d p => p.1 = d.1 ∧ (p.2 : Int) < d.2) dims idx

/-- Coordinates with those of some dims given by indices. -/
def at_ (idx : List (Dim × Nat)) (c : Dim → Int) : Dim → Int := fun d =>
  match idx.find? (fun p => p.1 == d) with
  | some p => p.2
  | none => c d

/-- The slice at the given indices: the other dims in the same order, with the elements at these indices. -/
def SliceAt (v : View) (idx : List (Dim × Nat)) (w : View) : Prop :=
  w.dims = v.dims.filter (fun d => d.1 ∉ idx.map (·.1)) ∧ w.readonly = v.readonly ∧ ∀ c, w.addr c = v.addr (at_ idx c)

/-- A dict with every slice along these dims, each exactly once under the text of its indices. -/
def AllSlices (name : Dim → List Char) (v : View) (dims : List (Dim × Int)) (out : List (List Char × View)) : Prop :=
  (out.map (·.1)).Nodup ∧ (out.length : Int) = (dims.map (·.2)).prod ∧
  (∀ k w, (k, w) ∈ out → ∃ idx, Indices dims idx ∧ k = text name idx ∧ SliceAt v idx w) ∧
  ∀ idx, Indices dims idx → ∃ w, (text name idx, w) ∈ out ∧ SliceAt v idx w

end Scipp.Collapse
