import Verif.Model.FlattenEdges
import Verif.Spec.Concat
/-!
Vocabulary for statements about flattening and folding bin edges.
-/
namespace Scipp.Flat
open Scipp Scipp.Concat
variable {V : Type}

/-- The edges in `x`, which has bins `0, ..., n - 1` along `edge`, can be joined: for every two rows that follow each other in the order of
the dims `outer`, the last edge of the former is the first edge of the latter. -/
def Joinable (eq : V → V → Bool) (x : CVar V) (outer : Dims) (edge : Dim) (n : Int) : Prop :=
  ∀ c c', InDims outer c → InDims outer c' → position outer c' = position outer c + 1 →
    eq (x.arr.val (upd c' edge 0)) (x.arr.val (upd c edge n)) = true

end Scipp.Flat
