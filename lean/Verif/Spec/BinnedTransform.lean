import Verif.Model.BinnedTransform
import Verif.Spec.View
import Verif.Spec.Sizes
/-!
Vocabulary for elementwise operations with binned operands.
-/
namespace Scipp.BinnedOps
open Sizes
variable {V M : Type}

/-- The index pair of the bin at coordinates `c`. -/
def Binned.bin (b : Binned V M) (c : Dim → Int) : Int × Int := b.pairs (b.view.addr c)

/-- Number of events in the bin at coordinates `c`. -/
def Binned.count (b : Binned V M) (c : Dim → Int) : Int := (b.bin c).2 - (b.bin c).1

/-- Memory address of the `k`-th event of the bin at coordinates `c`. -/
def Binned.addr (b : Binned V M) (c : Dim → Int) (k : Nat) : Int := b.events.view.addr (fun _ => (b.bin c).1 + k)

/-- What an operand contributes to the `k`-th event of the bin at coordinates `c`: the value at `c` if it is dense, its own
`k`-th event if it is binned. -/
def Operand.event : Operand V M → (Dim → Int) → Nat → V
  | .dense v vals, c, _ => vals (v.addr c)
  | .binned b, c, k => b.events.vals (b.addr c k)

/-- Number of rows of the buffer. -/
def Binned.rows (b : Binned V M) : Int := Dims.volume b.events.view.dims

/-- Binned data as made by `make_bins` from a buffer with a single dim: the bins are within the buffer. -/
structure Binned.Good (b : Binned V M) : Prop where
  view : b.view.WF
  labels : Dim.invalid ∉ Sizes.labels b.view.dims
  buffer : b.events.view.WF
  oneDim : b.events.view.dims = [(b.events.dim, b.rows)]
  bins : ∀ c, InDims b.view.dims c → 0 ≤ (b.bin c).1 ∧ (b.bin c).1 ≤ (b.bin c).2 ∧ (b.bin c).2 ≤ b.rows
  table : ∀ t, b.events.table = some t → (t.length : Int) = b.rows

/-- An operand that can occur. -/
def Operand.Good : Operand V M → Prop
  | .dense v _ => v.WF ∧ Dim.invalid ∉ Sizes.labels v.dims
  | .binned b => b.Good

/-- The index pair of the bin of the output at coordinates `c`. -/
def Created.bin (r : Created M) (c : Dim → Int) : Int × Int := r.indices.getD (position r.dims c).toNat (0, 0)

/-- No two bins of the binned variable share an event. -/
def Binned.Disjoint (b : Binned V M) : Prop :=
  ∀ c c', InDims b.view.dims c → InDims b.view.dims c' → ∀ k k' : Nat, (k : Int) < b.count c → (k' : Int) < b.count c' →
    b.addr c k = b.addr c' k' → (∀ d ∈ labels b.view.dims, c d = c' d) ∧ k = k'

/-- What an input of an in-place operation contributes to the `k`-th event of the bin at coordinates `c`, given the content of the memory
that is written to before the operation. -/
def Input.event (x : Input V M) (mem : Int → V) (c : Dim → Int) (k : Nat) : V :=
  if x.shared then (match x.operand with
    | .dense v _ => mem (v.addr c)
    | .binned b => mem (b.addr c k))
  else x.operand.event c k

/-- The operand refers to the very same bins as `out`. -/
def Operand.Same (o : Operand V M) (out : Binned V M) : Prop :=
  ∃ b, o = .binned b ∧ b.view.dims = out.view.dims ∧ b.view.strides = out.view.strides ∧ b.view.offset = out.view.offset ∧
    b.pairs = out.pairs ∧ b.events.view = out.events.view

end Scipp.BinnedOps
