import Verif.Model.EventMasks
import Verif.Spec.Masks
import Mathlib.Algebra.Field.Defs
/-!
Vocabulary for statements about masked events.
-/
namespace Scipp.EventMasks
variable {V : Type}

/-- A usable binned variable: the buffer has one dim, its masks are boolean without unit and fit, the bins are ranges of the
buffer. They may overlap, be out of order, and leave rows unused. -/
structure EventArr.Ok (b : EventArr V) (n : Int) : Prop where
  indices : b.indices.Ok
  buffer : b.buffer.Ok
  size : b.buffer.data.dims = [(b.dim, n)]
  ranges : ∀ c, InDims b.indices.dims c →
    0 ≤ (b.indices.val c).1 ∧ (b.indices.val c).1 ≤ (b.indices.val c).2 ∧ (b.indices.val c).2 ≤ n

/-- Row `k` of the buffer is masked by a mask of the events. -/
def EventArr.masked (b : EventArr V) (k : Int) : Bool := maskedAlong b.buffer.masks b.dim (fun _ => k)

/-- The events of the bin at `c` which are not masked. -/
def EventArr.unmasked (b : EventArr V) (c : Dim → Int) : List V :=
  ((intRange (b.indices.val c).1 (b.indices.val c).2).filter (fun k => !b.masked k)).map (fun k => b.buffer.data.val (fun _ => k))

/-- The events which are not masked, in the bins along `dim` (of extent `n`) through `c`, except for bins masked by one of
`masks`. -/
def EventArr.unmaskedAlong (b : EventArr V) (masks : List (Dim × MaskVar)) (dim : Dim) (n : Int) (c : Dim → Int) : List V :=
  ((intRange 0 n).filter (fun j => !maskedAlong masks dim (upd c dim j))).flatMap (fun j => b.unmasked (upd c dim j))

/-- All events which are not masked, except for those in bins masked by one of `masks`. -/
def EventArr.allUnmasked (b : EventArr V) (masks : List (Dim × MaskVar)) : List V :=
  ((List.range (Dims.volume b.indices.dims).toNat).filter (fun k : Nat => !maskedAny masks (coordsOf b.indices.dims k))).flatMap
    (fun k : Nat => b.unmasked (coordsOf b.indices.dims k))

/-- Masks of bins as in a data array with the given dims. -/
def MasksFit (masks : List (Dim × MaskVar)) (dims : Dims) : Prop :=
  ∀ p ∈ masks, p.2.arr.Ok ∧ p.2.Plain ∧ ∀ q ∈ p.2.arr.dims, q ∈ dims

/-- The mean of a list; NaN if it is empty. -/
def meanOf {K : Type} [Field K] (l : List K) : Option K := if l.length = 0 then none else some (l.sum / l.length)

end Scipp.EventMasks
