import Verif.Model.Sizes
/-
Model of strided views: the dims/strides/offset/readonly part of
`scipp::variable::Variable` (`lib/variable/include/scipp/variable/variable.h`,
`lib/variable/variable.cpp`) and of `lib/variable/shape.cpp`, `lib/core/strides.cpp`.
-/
namespace Scipp

namespace Sizes

/-- `small_stable_map::index` (`lib/core/sizes.cpp` 77-82): position of a label. -/
def index : Sizes → Dim → Except Err Nat
  | [], _ => .error .dimension
  | (k, _) :: s, d => if k = d then .ok 0 else (index s d).map (· + 1)

end Sizes

/-- The part of `Variable` that determines which elements of the buffer are seen
(`variable.h`: members `m_dims`, `m_strides`, `m_offset`, `m_readonly`). The
buffer itself (`m_object`) is added by `Var`. -/
structure View where
  dims : Dims
  strides : List Int
  offset : Int
  readonly : Bool
  deriving DecidableEq, Repr

/-- Memory address (index into the buffer) of the element at named coordinates
`c`: `offset + Σ c(label) * stride`. This is what `flat_index_from_strides`
(`lib/common/include/scipp/common/index_composition.h` 23-32) computes for the
view's strides. -/
def addrAux : Dims → List Int → (Dim → Int) → Int
  | (d, _) :: ds, s :: ss, c => c d * s + addrAux ds ss c
  | _, _, _ => 0

/-- See `addrAux` (`index_composition.h` 23-32); plus the start offset of the
view (`lib/core/include/scipp/core/element_array_view.h`, `begin() + m_offset`). -/
def View.addr (v : View) (c : Dim → Int) : Int := v.offset + addrAux v.dims v.strides c

/-- A fresh variable with given dims (`variable.cpp` 23-32, constructor from dims
and data: `m_strides(dims)`, offset 0, writable). -/
def View.fresh (dims : Dims) : View := ⟨dims, rowMajor (Sizes.shape dims), 0, false⟩

/-- `transpose(Strides, Dimensions, order)` (`lib/core/strides.cpp` 42-49). The
loop replaces every extent by the stride, `resize` rejects negative values. -/
def transposeStrides (strides : List Int) (dims : Dims) (order : List Dim) :
    Except Err (List Int) := do
  let from_ ← ((Sizes.labels dims).zip strides).foldlM
    (fun (s : Dims) p => Sizes.resize s p.1 p.2) dims
  let t ← Dims.transpose from_ order
  .ok (Sizes.shape t)

/-- `Strides::transpose` loop and `fold`: strides of a folded variable
(`variable.cpp` 252-260). -/
def foldStrides (dim : Dim) (sub : List Int) : Dims → List Int → List Int
  | (d, _) :: ds, s :: ss =>
    (if d = dim then sub.map (s * ·) else [s]) ++ foldStrides dim sub ds ss
  | _, _ => []

namespace View

/-- `Variable::slice` (`variable.cpp` 185-204). -/
def slice (v : View) (p : Slice) : Except Err View := do
  Sizes.validSlice v.dims p
  if p = Slice.none then .ok v
  else
    let i ← Sizes.index v.dims p.dim
    let offset := v.offset + p.start * v.strides.getD i 0
    if p.stop = -1 then
      let dims ← Sizes.erase v.dims p.dim
      .ok { v with dims, strides := v.strides.eraseIdx i, offset }
    else
      let dims ← Sizes.slice v.dims p
      .ok { v with dims, strides := v.strides.modify i (· * p.stride), offset }

/-- `Variable::transpose` (`variable.cpp` 264-269). -/
def transpose (v : View) (order : List Dim) : Except Err View := do
  let strides ← transposeStrides v.strides v.dims order
  let dims ← Dims.transpose v.dims order
  .ok { v with dims, strides }

/-- `Variable::broadcast` (`variable.cpp` 238-247, `expect::includes`
`lib/core/except.cpp` 72-81). -/
def broadcast (v : View) (target : Dims) : Except Err View :=
  if Sizes.includes target v.dims = false then .error .dimension
  else do
    let strides ← (Sizes.labels target).mapM (fun d =>
      if Sizes.contains v.dims d then do
        let i ← Sizes.index v.dims d
        .ok (v.strides.getD i 0)
      else .ok 0)
    .ok { v with
      dims := target
      strides
      readonly := if Dims.volume target = Dims.volume v.dims then v.readonly else true }

/-- `Variable::fold` (`variable.cpp` 249-262). -/
def fold (v : View) (dim : Dim) (target : Dims) : Except Err View := do
  let dims ← Dims.fold v.dims dim target
  .ok { v with
    dims
    strides := foldStrides dim (rowMajor (Sizes.shape target)) v.dims v.strides }

/-- `Variable::rename_dims` (`variable.cpp` 275-281). -/
def renameDims (v : View) (names : List (Dim × Dim)) (strict : Bool) : Except Err View := do
  let dims ← Sizes.renameDims v.dims names strict
  .ok { v with dims }

/-- `Variable::as_const` (`variable.cpp` 328-332). -/
def asConst (v : View) : View := { v with readonly := true }

/-- `dims_for_squeezing` (`lib/variable/shape.cpp` 138-159). -/
def dimsForSqueezing (dims : Dims) : Option (List Dim) → Except Err (List Dim)
  | some sel => do
    for d in sel do
      let n ← Sizes.at? dims d
      if n ≠ 1 then .error .dimension
    .ok sel
  | none => .ok ((Sizes.labels dims).filter (fun d => decide (Sizes.at? dims d = .ok 1)))

/-- `squeeze` (`shape.cpp` 161-168). -/
def squeeze (v : View) (sel : Option (List Dim)) : Except Err View := do
  let ds ← dimsForSqueezing v.dims sel
  ds.foldlM (fun v d => v.slice ⟨d, 0, -1, 1⟩) v

end View

/-- A view together with the buffer it refers to (`m_object`). The buffer is a
function from addresses to elements; its length does not matter here (see
`View.InBounds` in the specification). -/
structure Var (α : Type) where
  view : View
  buf : Int → α

/-- Coordinates of the `k`-th element in row-major order
(`extract_indices`, `index_composition.h` 93-111, applied by the iteration that
`copy` performs). Proved to agree with the model of `extract_indices` in
`Verif.Props.Index`. -/
def coordsOf : Dims → Int → Dim → Int
  | [], _, _ => 0
  | (d, _) :: ds, k, e =>
    if e = d then k / Dims.volume ds else coordsOf ds (k % Dims.volume ds) e

namespace Var

/-- Element of a variable at named coordinates. -/
def elem {α : Type} (x : Var α) (c : Dim → Int) : α := x.buf (x.view.addr c)

/-- `copy(Variable)` (`lib/variable/creation.cpp` `copy`, `empty_like` followed by an
elementwise copy): a fresh contiguous buffer with the elements in row-major order. -/
def copy {α : Type} (x : Var α) : Var α :=
  ⟨View.fresh x.view.dims, fun k => x.buf (x.view.addr (coordsOf x.view.dims k))⟩

end Var

/-- `std::search` for a contiguous occurrence of `pat` in `l` (as used in
`lib/variable/shape.cpp` 111-114): position of the first one. -/
def searchIdx (pat : List Dim) : List Dim → Option Nat
  | [] => if pat = [] then some 0 else none
  | x :: l => if pat.isPrefixOf (x :: l) then some 0 else (searchIdx pat l).map (· + 1)

/-- Loop of `flatten` over `from_labels` (`shape.cpp` 118-130). `none` means that a
copy is needed. `from == from_labels.back()` is tested here by "no label left";
the two agree because `from_labels` is a segment of the (distinct) labels. -/
def flattenLoop (to : Nat) (toDim : Dim) : List Dim → Int → View → Except Err (Option View)
  | [], _, out => .ok (some out)
  | [l], size, out => do
    let size := size * (Sizes.shape out.dims).getD to 0
    let dims ← Sizes.resize out.dims l size
    let dims ← Sizes.replaceKey dims l toDim
    .ok (some { out with dims })
  | l :: l' :: ls, size, out =>
    let size := size * (Sizes.shape out.dims).getD to 0
    if out.strides.getD to 0 ≠
        (Sizes.shape out.dims).getD (to + 1) 0 * out.strides.getD (to + 1) 0 then .ok none
    else do
      let dims ← Sizes.erase out.dims l
      flattenLoop to toDim (l' :: ls) size { out with dims, strides := out.strides.eraseIdx to }

/-- `flatten` without the copying branch (`shape.cpp` 102-132). -/
def View.flatten? (v : View) (fromLabels : List Dim) (toDim : Dim) : Except Err (Option View) :=
  if fromLabels = [] then do
    let dims ← Dims.addInner v.dims toDim 1
    .ok (some { v with dims, strides := v.strides ++ [1] })
  else
    match searchIdx fromLabels (Sizes.labels v.dims) with
    | none => .error .dimension
    | some to => flattenLoop to toDim fromLabels 1 v

/-- `flatten` (`shape.cpp` 102-132). The recursive call on the copy is modelled by
one more attempt; that a second copy is never needed is part of the proof
(`.logic` would be an infinite recursion in the code). -/
def Var.flatten {α : Type} (x : Var α) (fromLabels : List Dim) (toDim : Dim) :
    Except Err (Var α) := do
  match ← x.view.flatten? fromLabels toDim with
  | some v => .ok ⟨v, x.buf⟩
  | none =>
    match ← x.copy.view.flatten? fromLabels toDim with
    | some v => .ok ⟨v, x.copy.buf⟩
    | none => .error .logic

end Scipp
