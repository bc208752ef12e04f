import Verif.Model.Masks
import Verif.Spec.SizedDict
/-!
Vocabulary for statements about masks and about arrays by content.
-/
namespace Scipp

/-- A well-formed array: unique valid labels, non-negative extents, and only the coordinates of its own dims matter. -/
structure Arr.Ok {V : Type} (a : Arr V) : Prop where
  wf : Sizes.WF a.dims
  valid : Dim.invalid ∉ Sizes.labels a.dims
  own : ∀ c c' : Dim → Int, (∀ d ∈ Sizes.labels a.dims, c d = c' d) → a.val c = a.val c'

/-- A mask that can be combined with others. -/
structure MaskVar.Plain (m : MaskVar) : Prop where
  bool : m.isBool = true
  unit : m.unitNone = true

/-- Extents of shared dims agree. -/
def Compatible (a b : Dims) : Prop := ∀ d x y, (d, x) ∈ a → (d, y) ∈ b → x = y

/-- Is the element with coordinates `c` masked by the given mask (no mask: no). -/
def maskedBy (m : Option MaskVar) (c : Dim → Int) : Bool :=
  match m with
  | none => false
  | some m => m.arr.val c

/-- Dims of a mask (no mask: none). -/
def maskDims (m : Option MaskVar) : Dims :=
  match m with
  | none => []
  | some m => m.arr.dims

/-- `r` is the union of the masks `x` and `y` of the same name: present if one of them is, with the dims of both, masking an element
if one of them does. -/
def IsMaskUnion (x y r : Option MaskVar) : Prop :=
  (r.isSome ↔ x.isSome ∨ y.isSome) ∧
  (∀ p, p ∈ maskDims r ↔ p ∈ maskDims x ∨ p ∈ maskDims y) ∧
  ∀ c, InDims (maskDims r) c → maskedBy r c = (maskedBy x c || maskedBy y c)

/-- Is the element with coordinates `c` masked by a mask depending on `dim`. -/
def maskedAlong (masks : List (Dim × MaskVar)) (dim : Dim) (c : Dim → Int) : Bool :=
  masks.any (fun p => Sizes.contains p.2.arr.dims dim && p.2.arr.val c)

/-- Is the element with coordinates `c` masked by a mask that has any dim. -/
def maskedAny (masks : List (Dim × MaskVar)) (c : Dim → Int) : Bool :=
  masks.any (fun p => !p.2.arr.dims.isEmpty && p.2.arr.val c)

/-- Masked data as accepted by the reductions: masks are boolean without unit, and their dims are dims of the data (not bin
edges). -/
structure MaskedArr.Ok {V : Type} (a : MaskedArr V) : Prop where
  data : a.data.Ok
  masks : ∀ p ∈ a.masks, p.2.arr.Ok ∧ p.2.Plain ∧ ∀ q ∈ p.2.arr.dims, q ∈ a.data.dims

/-- The unmasked elements of a row along `dim` (of extent `n`) through `c`. -/
def unmaskedRow {V : Type} (a : MaskedArr V) (dim : Dim) (n : Int) (c : Dim → Int) : List V :=
  ((intRange 0 n).filter (fun j => !maskedAlong a.masks dim (upd c dim j))).map (fun j => a.data.val (upd c dim j))

end Scipp
