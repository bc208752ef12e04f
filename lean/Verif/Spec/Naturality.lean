import Verif.Spec.View
import Verif.Model.Reduce
/-!
Vocabulary for statements about rearranging before or after a computation.
-/
namespace Scipp
open Sizes
variable {V : Type}

/-- The same data sliced if it has the dim, as is otherwise. -/
def Operand.Sliced (p : Slice) (o o' : Operand V) : Prop :=
  o'.buf = o.buf ∧ if p.dim ∈ labels o.view.dims then o.view.slice p = .ok o'.view else o'.view = o.view

/-- The same data transposed in some way. -/
def Operand.Transposed (o o' : Operand V) : Prop := o'.buf = o.buf ∧ ∃ order, o.view.transpose order = .ok o'.view

/-- The same data, as is or broadcast to some dims. -/
def Operand.Broadcast (o o' : Operand V) : Prop :=
  o'.buf = o.buf ∧ (o'.view = o.view ∨ ∃ tgt, Sizes.WF tgt ∧ Dim.invalid ∉ labels tgt ∧ o.view.broadcast tgt = .ok o'.view)

/-- The same data with a dim renamed if it has the dim, as is otherwise. -/
def Operand.Renamed (f t : Dim) (o o' : Operand V) : Prop :=
  o'.buf = o.buf ∧ if f ∈ labels o.view.dims then o.view.renameDims [(f, t)] true = .ok o'.view else o'.view = o.view

/-- The operation is associative and commutative, with `init` as neutral element. -/
structure CommMonoidOp (op : V → V → V) (init : V) : Prop where
  assoc : ∀ x y z, op (op x y) z = op x (op y z)
  comm : ∀ x y, op x y = op y x
  neutral : ∀ x, op x init = x

end Scipp
