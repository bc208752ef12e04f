import Verif.Model.SizedDict
import Verif.Spec.View
/-!
Vocabulary for statements about dictionaries of coords and masks.
-/
namespace Scipp

/-- The dimensions of a coord fit the sizes of the data: at most one dimension `e` is not a dimension of the data with
the same extent, and that one is longer by one (bin edges) or is not a dimension of the data and has length 2 (the two
edges of a bin). -/
def Fits (sizes : Sizes) (dims : Dims) : Prop :=
  ∃ e, (∀ d n, (d, n) ∈ dims → d ≠ e → (d, n) ∈ sizes) ∧
    ∀ n, (e, n) ∈ dims → (e, n) ∈ sizes ∨ (∃ m, (e, m) ∈ sizes ∧ n = m + 1) ∨ (e ∉ Sizes.labels sizes ∧ n = 2)

/-- A well-formed dictionary: all entries fit. -/
def SizedDict.Ok (d : SizedDict) : Prop :=
  Sizes.WF d.sizes ∧ (d.items.map Prod.fst).Nodup ∧ ∀ p ∈ d.items, p.2.view.WF ∧ p.2.binned = false ∧ Fits d.sizes p.2.dims

/-- What can be said about the argument of an operation: a variable has well-formed dims and strides, a slice was made
by one of the constructors, another dictionary is well-formed itself. -/
def SizedDictOp.Valid : SizedDictOp → Prop
  | .set _ e => e.view.WF
  | .slice p => p.Constructed
  | .sliceCoords p => p.Constructed
  | .mergeFrom o => o.Ok
  | .setSizes s => Sizes.WF s
  | _ => True

/-- The operation is not `setSizes`. -/
def SizedDictOp.KeepsSizes : SizedDictOp → Prop
  | .setSizes _ => False
  | _ => True

/-- What the result of an operation has under a name, given what the two operands have: an aligned coord survives and wins
over an unaligned one, unaligned coords survive only if both operands have it with the same values. -/
def mergedCoord (eq : Entry → Entry → Bool) : Option Entry → Option Entry → Option Entry
  | none, none => none
  | some x, none => if x.aligned then some x else none
  | none, some y => if y.aligned then some y else none
  | some x, some y => if x.aligned then some x else if y.aligned then some y else if eq x y then some y else none

/-- The same coord, up to values: nothing on both sides, the same coord, or coords of equal values and alignment. -/
def SameCoord (eq : Entry → Entry → Bool) : Option Entry → Option Entry → Prop
  | none, none => True
  | some x, some y => x.aligned = y.aligned ∧ (x = y ∨ eq x y = true)
  | _, _ => False

/-- The coord has bin edges along `x`: one more than the data, or the two edges of a bin of a dim the data does not have. -/
def EdgesAlong (sizes : Sizes) (dims : Dims) (x : Dim) : Prop :=
  ∃ n, (x, n) ∈ dims ∧ ((∃ m, (x, m) ∈ sizes ∧ n = m + 1) ∨ (x ∉ Sizes.labels sizes ∧ n = 2))

/-- A coord named `key` labels the positions along `x`: it is one-dimensional along `x`, or it has edges along `x`, or it
has no edges at all, depends on `x` and is named `x`. -/
def LabelsDim (sizes : Sizes) (key : Dim) (dims : Dims) (x : Dim) : Prop :=
  x ∈ Sizes.labels dims ∧ (dims.length = 1 ∨ EdgesAlong sizes dims x ∨ (key = x ∧ ∀ y, ¬ EdgesAlong sizes dims y))

end Scipp
