import Verif.Model.BinMeta
/-
What `bin` is to do with dimensions and metadata, for C77.
-/
namespace Scipp.BinMeta

/-- The dimension of edges or groups: the inner one. -/
abbrev dimOf (c : Entry) : Dim := Dims.inner c.dims

/-- The number of edges or groups. -/
def lenOf (c : Entry) : Int := (c.dims.getLast?.map Prod.snd).getD 0

/-- The number of bins along a dimension of the input in the output: that of the groups for the dimension, else one less than that of the edges, else unchanged. -/
def newLen (edges groups : List Entry) (p : Dim × Int) : Dim × Int :=
  (p.1, match groups.find? fun c => dimOf c == p.1 with
    | some g => lenOf g
    | none =>
      match edges.find? fun c => dimOf c == p.1 with
      | some e => lenOf e - 1
      | none => p.2)

/-- The entry depends on a dimension. -/
def DependsOn (e : Entry) (d : Dim) : Prop := d ∈ Sizes.labels e.dims

/-- What the output has no place for: what depends on the dimension of the events, on one of the dimensions that are erased, or on one that gets new bins. -/
def Gone (edges groups : List Entry) (erase : List Dim) (bufDim : Dim) (e : Entry) : Prop :=
  DependsOn e bufDim ∨ ∃ d, DependsOn e d ∧ (d ∈ erase ∨ (∃ c ∈ edges, dimOf c = d) ∨ ∃ c ∈ groups, dimOf c = d)

/-- The edges or groups for a dimension; groups come first. -/
def keyFor (edges groups : List Entry) (d : Dim) : Option Entry :=
  match groups.find? fun c => dimOf c == d with
  | some g => some g
  | none => edges.find? fun c => dimOf c == d

/-- The keys of a dictionary are different. -/
def Keys (l : List (Dim × Entry)) : Prop := (l.map Prod.fst).Nodup

end Scipp.BinMeta
