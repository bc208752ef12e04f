import Verif.Model.Bins
import Verif.Spec.Masks
/-!
Vocabulary for statements about binned data.
-/
namespace Scipp.Bins
variable {V : Type}

/-- One row of a buffer: the data value, and the value of every coord, attr and mask. -/
structure Event (V : Type) where
  data : Option V
  field : Dim → Option V

/-- The value of a column in row `i`. -/
def Col.at (c : Col V) (i : Nat) : Option V :=
  match c with
  | .along rows => rows[i]?
  | .fixed v => some v

/-- Row `i` of a buffer. -/
def Table.event (t : Table V) (i : Nat) : Event V := ⟨t.data[i]?, fun k => (lookupEntry t.cols k).bind (Col.at · i)⟩

/-- The rows of a range, that is, the content of a bin. -/
def Table.events (t : Table V) (r : Int × Int) : List (Event V) := (intRange r.1 r.2).map (fun i => t.event i.toNat)

/-- The content of the bin at coordinates `c`. -/
def Binned.bin (x : Binned V) (c : Dim → Int) : List (Event V) := x.buffer.events (x.indices.val c)

/-- Consecutive ranges covering exactly `[b, n)`: no gaps and no overlap. -/
def Contiguous : Int → Int → List (Int × Int) → Prop
  | b, n, [] => b = n
  | b, n, r :: l => r.1 = b ∧ r.1 ≤ r.2 ∧ Contiguous r.2 n l

/-- All columns have as many rows as the data, every name occurs once. -/
structure Table.Ok (t : Table V) : Prop where
  keys : (t.cols.map Prod.fst).Nodup
  rows : ∀ k rows, (k, Col.along rows) ∈ t.cols → rows.length = t.data.length

/-- A usable binned variable: the bins are ranges of the buffer. They may overlap, be out of order, and leave rows unused. -/
structure Binned.Ok (x : Binned V) : Prop where
  indices : x.indices.Ok
  buffer : x.buffer.Ok
  ranges : ∀ c, InDims x.indices.dims c →
    0 ≤ (x.indices.val c).1 ∧ (x.indices.val c).1 ≤ (x.indices.val c).2 ∧ (x.indices.val c).2 ≤ x.buffer.data.length

/-- The columns of a buffer that do not depend on the bin dim are equal to themselves; not so if they contain NaN. -/
def Table.NoNaN (eqv : V → V → Bool) (t : Table V) : Prop := ∀ k v, (k, Col.fixed v) ∈ t.cols → eqv v v = true

/-- Rows of one buffer can be copied to another: the same columns, depending on the bin dim in both or with equal values. -/
structure Table.Matches (eqv : V → V → Bool) (a b : Table V) : Prop where
  keys : ∀ k, (lookupEntry a.cols k).isSome = (lookupEntry b.cols k).isSome
  along : ∀ k rows, lookupEntry a.cols k = some (.along rows) → ∃ rows', lookupEntry b.cols k = some (.along rows')
  fixed : ∀ k v, lookupEntry a.cols k = some (.fixed v) → ∃ w, lookupEntry b.cols k = some (.fixed w) ∧ eqv v w = true

end Scipp.Bins
