import Verif.Model.View
/-
Model of flat indices into multi-dimensional memory:
`lib/common/include/scipp/common/index_composition.h`,
`lib/core/view_index.cpp`, `lib/core/include/scipp/core/view_index.h`,
`lib/core/element_array_view.cpp` and the iterator in
`lib/core/include/scipp/core/element_array_view.h`.
-/
namespace Scipp

/-- `NDIM_OP_MAX` (`lib/core/include/scipp/core/dimensions.h`, value 6): length of the
fixed-size arrays in `ViewIndex` and `MultiIndex`. -/
def ndimOpMax : Nat := 6

/-- `flat_index_from_strides` (`index_composition.h` 23-32): `Σ strides[i] * indices[i]`. -/
def flatIndex : List Int → List Int → Int
  | s :: ss, i :: is => s * i + flatIndex ss is
  | _, _ => 0

/-- `extract_indices` (`index_composition.h` 93-111): split a flat index, fastest dim
first; the last index is not reduced. Division is C++ integer division. For no
dimensions the flat index itself is written. -/
def extractIndices : Int → List Int → List Int
  | k, [] => [k]
  | k, [_] => [k]
  | k, s :: s' :: ss =>
    if s ≠ 0 then (k - k.tdiv s * s) :: extractIndices (k.tdiv s) (s' :: ss)
    else 0 :: extractIndices k (s' :: ss)

/-- `memory_bounds` (`index_composition.h` 42-59): range of reachable offsets. -/
def memoryBounds (shape strides : List Int) : Int × Int :=
  if shape = [] then (0, 1)
  else (shape.zip strides).foldl
    (fun (b : Int × Int) p =>
      if p.2 < 0 then (b.1 + p.1 * p.2, b.2) else (b.1, b.2 + p.1 * p.2)) (0, 0)

/-- One entry of the arrays `m_shape`, `m_delta`, `m_strides` (`view_index.h` 67-74). -/
structure VDim where
  size : Int
  delta : Int
  stride : Int
  deriving DecidableEq, Repr

/-- The loop of the `ViewIndex` constructor (`view_index.cpp` 14-33). The dimensions
are given in reading order (innermost first), each as `(size, stride)`. `out` holds
the entries written so far, the last one first (so its length is `dim_write`). Writing
entry 6 or multiplying entry -1 is undefined behaviour. -/
def viewIndexLoop : List (Int × Int) → Int → List VDim → Except Err (List VDim)
  | [], _, out => .ok out.reverse
  | (size, stride) :: rest, rewind, out =>
    let delta := stride - rewind
    let rewind' := size * stride
    if delta ≠ 0 ∨ stride = 0 then
      if out.length < ndimOpMax then viewIndexLoop rest rewind' (⟨size, delta, stride⟩ :: out)
      else .error .ub
    else
      match out with
      | [] => .error .ub
      | e :: out' => viewIndexLoop rest rewind' ({ e with size := e.size * size } :: out')

/-- `ViewIndex` (`view_index.h` 20-76). The arrays have 6 entries; those at and beyond
`m_ndim` are zero-initialised. -/
structure ViewIndex where
  mem : Int
  index : Int
  dims : List VDim
  coord : List Int
  ndim : Nat
  deriving DecidableEq, Repr

namespace ViewIndex

/-- Constructor (`view_index.cpp` 11-35). -/
def make (dims : Dims) (strides : List Int) : Except Err ViewIndex := do
  let ds ← viewIndexLoop ((Sizes.shape dims).zip strides).reverse 0 []
  .ok ⟨0, 0, ds ++ List.replicate (ndimOpMax - ds.length) ⟨0, 0, 0⟩,
    List.replicate ndimOpMax 0, ds.length⟩

/-- `increment_outer` (`view_index.h` 24-31): the loop over `d < 5` while
`m_coord[d] == m_shape[d]`, as a recursion on the remaining entries of the arrays. -/
def incOuter : List VDim → List Int → Int → List Int × Int
  | e :: e' :: ds, c :: c' :: cs, mem =>
    if c = e.size then
      let r := incOuter (e' :: ds) ((c' + 1) :: cs) (mem + e'.delta)
      (0 :: r.1, r.2)
    else (c :: c' :: cs, mem)
  | _, cs, mem => (cs, mem)

/-- `increment` (`view_index.h` 32-38). -/
def increment (v : ViewIndex) : ViewIndex :=
  match v.dims, v.coord with
  | e :: _, c :: cs =>
    let mem := v.mem + e.delta
    if c + 1 = e.size then
      let r := incOuter v.dims ((c + 1) :: cs) mem
      { v with mem := r.2, coord := r.1, index := v.index + 1 }
    else { v with mem := mem, coord := (c + 1) :: cs, index := v.index + 1 }
  | _, _ => v

/-- `set_index` (`view_index.h` 40-46): overwrites the first `m_ndim` coordinates (one
coordinate if there are no dimensions). -/
def setIndex (v : ViewIndex) (k : Int) : ViewIndex :=
  let is := extractIndices k ((v.dims.take v.ndim).map VDim.size)
  { v with index := k, coord := is ++ v.coord.drop is.length,
           mem := flatIndex ((v.dims.take v.ndim).map VDim.stride) is }

end ViewIndex

/-- Steps of the iterator of a view (`element_array_view.h` 46-54): `increment`,
`decrement`, `advance`. -/
inductive IterOp
  | inc | dec | adv (delta : Int)
  deriving DecidableEq, Repr

/-- One iterator step (`element_array_view.h` 46-54). -/
def IterOp.run (v : ViewIndex) : IterOp → ViewIndex
  | .inc => v.increment
  | .dec => v.setIndex (v.index - 1)
  | .adv d => if d = 1 then v.increment else v.setIndex (v.index + d)

/-- Constructor of the iterator (`element_array_view.h` 30-36) as used by `begin()`
(index 0) and `end()` (index `size()`). -/
def iterAt (dims : Dims) (strides : List Int) (k : Int) : Except Err ViewIndex := do
  let v ← ViewIndex.make dims strides
  .ok (v.setIndex k)

/-- `for (it = begin; it != end; ++it) visit(*it)` (`increment` and `equal` of `ElementArrayViewParams_iterator`,
`lib/core/include/scipp/core/element_array_view.h` 45-70): memory offsets visited, `none` if not
done after `fuel` steps. -/
def collect : Nat → ViewIndex → ViewIndex → Option (List Int)
  | 0, _, _ => none
  | fuel + 1, it, e =>
    if it.index = e.index then some []
    else (collect fuel it.increment e).map (it.mem :: ·)

/-- `ElementArrayViewParams::overlaps` (`element_array_view.cpp` 64-79) for views of the
same buffer. `==` of `Dimensions` includes the order of dims. -/
def View.overlaps (a b : View) : Bool :=
  if a.offset = b.offset ∧ Dims.eqDims a.dims b.dims ∧ a.strides = b.strides then false
  else
    let x := memoryBounds (Sizes.shape a.dims) a.strides
    let y := memoryBounds (Sizes.shape b.dims) b.strides
    decide (x.1 < y.2) && decide (x.2 > y.1)

end Scipp
