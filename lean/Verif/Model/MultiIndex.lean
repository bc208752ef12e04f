import Verif.Model.Index
import Mathlib.Algebra.Group.Pi.Basic
import Mathlib.Algebra.Module.Pi
import Mathlib.Data.List.FinRange
import Mathlib.Data.Fintype.Pi
/-
Model of `MultiIndex` (`lib/core/include/scipp/core/multi_index.h`,
`lib/core/multi_index.cpp`) and of the loops in
`lib/variable/include/scipp/variable/transform.h` that use it.

Whether an index has bins is fixed at construction (`has_bins()`), so the two cases
are modelled by two structures: `MultiIndex` (without bins) and `BinnedIndex`.
The fixed-size arrays `m_shape`, `m_stride` and `m_coord` are modelled by lists holding
the entries in use; entries beyond are zero and are never changed, apart from the ones
named below. The operands are numbered by `Fin N`.
-/
namespace Scipp

/-- `std::array<scipp::index, N>`: one number per operand (`multi_index.h` 336-339). -/
abbrev Vec (N : Nat) := Fin N → Int

/-- Sizes and strides in storage order, as read by `flatten_dims` via `dims.size` and
`value_or_default` (`multi_index.cpp` 67-71): operands with fewer strides have stride 0. -/
def readDims {N : Nat} : Dims → (Fin N → List Int) → List (Int × Vec N)
  | [], _ => []
  | p :: ds, st => (p.2, fun i => (st i).headD 0) :: readDims ds (fun i => (st i).tail)

/-- The loop of `flatten_dims` (`multi_index.cpp` 96-121) with `can_be_flattened`
(73-82) inlined. Dimensions are given in reading order (innermost first), `dim_read` is
the number of dimensions left. `out` holds the written entries, last one first. `cap` is
the size of the output spans. -/
def flattenLoopMI {N : Nat} (nf : Int) (cap : Nat) :
    List (Int × Vec N) → Vec N → List (Int × Vec N) → Except Err (List (Int × Vec N))
  | [], _, out => .ok out.reverse
  | (size, st) :: rest, sfc, out =>
    if out.length ≥ cap then .error .runtime
    else if (rest.length : Int) > nf then
      match out with
      | [] => flattenLoopMI nf cap rest sfc [(size, st)]
      | e :: out' =>
        if st = sfc then flattenLoopMI nf cap rest (size • st) ((e.1 * size, e.2) :: out')
        else flattenLoopMI nf cap rest (size • st) ((size, st) :: e :: out')
    else flattenLoopMI nf cap rest sfc ((size, st) :: out)

/-- `flatten_dims` (`multi_index.cpp` 89-123). `nf` is the storage index of the dim that
must not be flattened. -/
def flattenDims {N : Nat} (nf : Int) (cap : Nat) (dims : List (Int × Vec N)) :
    Except Err (List (Int × Vec N)) :=
  flattenLoopMI nf cap dims.reverse 0 []

/-- `flat_index` (`multi_index.h` 309-316) for all operands. -/
def flatVec {N : Nat} : List (Int × Vec N) → List Int → Vec N
  | p :: L, c :: cs => c • p.2 + flatVec L cs
  | _, _ => 0

/-- `increment_in_dims` (`multi_index.h` 194-209): the loop over `dim < end_dim` while the
dim is at its end, as a recursion on the remaining dims (`end_dim` is the last of the
list). `dim_at_end` (`multi_index.h` 180-182) is `c = max s 1`. -/
def incInDims {N : Nat} : List (Int × Vec N) → List Int → Vec N → List Int × Vec N
  | (s, st) :: (s', st') :: ds, c :: c' :: cs, data =>
    if c = max s 1 then
      let r := incInDims ((s', st') :: ds) ((c' + 1) :: cs) (data + (st' - c • st))
      (0 :: r.1, r.2)
    else (c :: c' :: cs, data)
  | _, cs, data => (cs, data)

/-- Sizes of the dims. -/
def dimSizes {N : Nat} (L : List (Int × Vec N)) : List Int := L.map Prod.fst

/-- `MultiIndex` without bins (`multi_index.h` 27-358). `dims` and `coord` hold the first
`max(1, m_ndim)` entries of `m_shape`/`m_stride` and `m_coord` (for 0 dims entry 0, which
is zero-initialised, is used as a coordinate). -/
structure MultiIndex (N : Nat) where
  data : Vec N
  dims : List (Int × Vec N)
  coord : List Int
  deriving DecidableEq

namespace MultiIndex

/-- Constructor without bins (`multi_index.cpp` 126-132). -/
def make {N : Nat} (dims : Dims) (strides : Fin N → List Int) : Except Err (MultiIndex N) := do
  let ds ← flattenDims 0 ndimOpMax (readDims dims strides)
  let ds' := if ds = [] then [(0, 0)] else ds
  .ok ⟨0, ds', ds'.map (fun _ => 0)⟩

/-- `increment_by` (`multi_index.h` 79-86) with `increment_outer` (55-69) for the case
without bins. `increment` (71-77) is the case 1. -/
def incrementBy {N : Nat} (m : MultiIndex N) (n : Int) : MultiIndex N :=
  match m.dims, m.coord with
  | p :: ds, c :: cs =>
    let data := m.data + n • p.2
    if c + n = max p.1 1 then
      let r := incInDims (p :: ds) ((c + n) :: cs) data
      { m with data := r.2, coord := r.1 }
    else { m with data := data, coord := (c + n) :: cs }
  | _, _ => m

/-- `set_index` (`multi_index.h` 104-113), case without bins. -/
def setIndex {N : Nat} (m : MultiIndex N) (k : Int) : MultiIndex N :=
  let c := extractIndices k (dimSizes m.dims)
  { m with coord := c, data := flatVec m.dims c }

/-- `in_same_chunk(end, 1)` (`multi_index.h` 142-153) together with `inner_distance_to`
(97-99) and `inner_distance_to_end` (92-94), as combined in `transform.h` 259-261. -/
def innerSize {N : Nat} (m e : MultiIndex N) : Int :=
  if m.coord.tail = e.coord.tail then e.coord.headD 0 - m.coord.headD 0
  else (dimSizes m.dims).headD 0 - m.coord.headD 0

/-- `inner_strides` (`multi_index.h` 88-90). -/
def innerStrides {N : Nat} (m : MultiIndex N) : Vec N := (m.dims.map Prod.snd).headD 0

/-- `inner_loop` (`transform.h` 195-225): the operand indices for which the operation is
called. -/
def innerLoop {N : Nat} (data strides : Vec N) (n : Int) : List (Vec N) :=
  (List.range n.toNat).map (fun (i : Nat) => data + (i : Int) • strides)

/-- The lambda `run` in `transform_elements` (`transform.h` 255-267; the same code in
`transform_in_place_impl` 498-511): the calls made in order, `none` if the loop has not
ended after `fuel` iterations. -/
def run {N : Nat} : Nat → MultiIndex N → MultiIndex N → Option (List (Vec N))
  | 0, _, _ => none
  | fuel + 1, m, e =>
    if m.coord = e.coord then some []
    else
      let n := innerSize m e
      (run fuel (m.incrementBy (if n ≠ 0 then n else 1)) e).map
        (innerLoop m.data m.innerStrides n ++ ·)

/-- The lambda `run_parallel` (`transform.h` 269-275) for the block `[b, e)`. -/
def runBlock {N : Nat} (fuel : Nat) (m : MultiIndex N) (b e : Int) : Option (List (Vec N)) :=
  run fuel (m.setIndex b) (m.setIndex e)

end MultiIndex

/-! ### Index with bins -/

/-- `MultiIndex` with bins. `inner`/`innerCoord` are the entries below `m_inner_ndim` of
the arrays, `outer`/`outerCoord` those from there up to `m_ndim` (for scalar bin variables
the single entry `m_inner_ndim`, which is zero-initialised). `isBinned`, `indices` and
`binIndex` are the fields of `BinIterator` (`multi_index.h` 219-231) per operand. -/
structure BinnedIndex (N : Nat) where
  data : Vec N
  inner : List (Int × Vec N)
  innerCoord : List Int
  outer : List (Int × Vec N)
  outerCoord : List Int
  /-- `bin_ndim() == 0` -/
  scalar : Bool
  nested : Nat
  isBinned : Fin N → Bool
  /-- `none` is the null pointer -/
  indices : Fin N → Option (Int → Int × Int)
  binIndex : Vec N

namespace BinnedIndex
variable {N : Nat}

/-- `at_end` (`multi_index.h` 184-192). -/
def atEnd (m : BinnedIndex N) : Bool :=
  m.outerCoord.getLast? = (m.outer.getLast?).map (fun p => max p.1 1)

/-- `m_shape[m_nested_dim_index]` (`multi_index.h` 215-217). -/
def nestedSize (m : BinnedIndex N) : Int := ((m.inner[m.nested]?).map Prod.fst).getD 0

/-- Assignment to `m_shape[m_nested_dim_index]` (`multi_index.h` 271, 276). -/
def setNestedSize (m : BinnedIndex N) (x : Int) : BinnedIndex N :=
  { m with inner := m.inner.modify m.nested (fun p => (x, p.2)) }

/-- `load_bin_params` (`multi_index.h` 263-280). -/
def loadBinParams (m : BinnedIndex N) (i : Fin N) : BinnedIndex N :=
  if !m.isBinned i then
    let x := flatVec m.inner m.innerCoord i + flatVec m.outer m.outerCoord i
    { m with data := Function.update m.data i x }
  else if !m.atEnd then
    match m.indices i with
    | some f =>
      let be := f (m.binIndex i)
      let x := (((m.inner[m.nested]?).map Prod.snd).getD 0) i * be.1
      { setNestedSize m (be.2 - be.1) with data := Function.update m.data i x }
    | none => { setNestedSize m 0 with data := Function.update m.data i 0 }
  else m

/-- The loop `for data < N: load_bin_params(data)` (`multi_index.h` 251-254, 291-294). -/
def loadAll (m : BinnedIndex N) : BinnedIndex N := (List.finRange N).foldl loadBinParams m

/-- `increment_bins` (`multi_index.h` 241-255) with `increment_outer_bins` (233-239). -/
def incrementBins (m : BinnedIndex N) : BinnedIndex N :=
  match m.outer, m.outerCoord with
  | p :: ds, c :: cs =>
    let bi := m.binIndex + p.2
    let r := if c + 1 = max p.1 1 then incInDims (p :: ds) ((c + 1) :: cs) bi else ((c + 1) :: cs, bi)
    let m' := { m with innerCoord := m.inner.map (fun _ => 0), outerCoord := r.1, binIndex := r.2 }
    if !m'.atEnd then m'.loadAll else m'
  | _, _ => m

/-- `seek_bin` (`multi_index.h` 257-261), a do-while loop; `none` if it has not ended after
`fuel` rounds. -/
def seekBin : Nat → BinnedIndex N → Option (BinnedIndex N)
  | 0, _ => none
  | fuel + 1, m =>
    let m' := m.incrementBins
    if m'.nestedSize = 0 ∧ !m'.atEnd then seekBin fuel m' else some m'

/-- `set_to_end_bin` (`multi_index.h` 300-307). -/
def setToEndBin (m : BinnedIndex N) : BinnedIndex N :=
  let z := m.outer.map (fun _ => (0 : Int))
  { m with innerCoord := m.inner.map (fun _ => 0),
           outerCoord := if m.scalar then z.dropLast ++ [1]
             else z.dropLast ++ [max ((dimSizes m.outer).getLastD 0) 1] }

/-- `set_bins_index` (`multi_index.h` 282-298). -/
def setIndex (seekFuel : Nat) (m : BinnedIndex N) (k : Int) : Option (BinnedIndex N) :=
  let m1 := if m.scalar ∧ k ≠ 0 then m.setToEndBin
    else { m with innerCoord := m.inner.map (fun _ => 0),
                  outerCoord := extractIndices k (dimSizes m.outer) }
  let m2 := loadAll { m1 with binIndex := flatVec m1.outer m1.outerCoord }
  if m2.nestedSize = 0 ∧ !m2.atEnd then seekBin seekFuel m2 else some m2

/-- `increment_by` (`multi_index.h` 79-86) with `increment_outer` (55-69), case with bins. -/
def incrementBy (seekFuel : Nat) (m : BinnedIndex N) (n : Int) : Option (BinnedIndex N) :=
  match m.inner, m.innerCoord with
  | p :: ds, c :: cs =>
    let data := m.data + n • p.2
    if c + n = max p.1 1 then
      let r := incInDims (p :: ds) ((c + n) :: cs) data
      let m' := { m with data := r.2, innerCoord := r.1 }
      if m'.innerCoord.getLast? = (m'.inner.getLast?).map (fun p => max p.1 1) then seekBin seekFuel m'
      else some m'
    else some { m with data := data, innerCoord := (c + n) :: cs }
  | _, _ => some m

/-- `inner_size` in the run loop (`transform.h` 259-261): `in_same_chunk(end, 1)` compares
all coordinates but the first. -/
def innerSize (m e : BinnedIndex N) : Int :=
  if m.innerCoord.tail = e.innerCoord.tail ∧ m.outerCoord = e.outerCoord then
    e.innerCoord.headD 0 - m.innerCoord.headD 0
  else (dimSizes m.inner).headD 0 - m.innerCoord.headD 0

/-- The lambda `run` (`transform.h` 255-267) for an index with bins. -/
def run (seekFuel : Nat) : Nat → BinnedIndex N → BinnedIndex N → Option (List (Vec N))
  | 0, _, _ => none
  | fuel + 1, m, e =>
    if m.innerCoord = e.innerCoord ∧ m.outerCoord = e.outerCoord then some []
    else
      let n := innerSize m e
      match m.incrementBy seekFuel (if n ≠ 0 then n else 1) with
      | none => none
      | some m' => (run seekFuel fuel m' e).map
          (MultiIndex.innerLoop m.data ((m.inner.map Prod.snd).headD 0) n ++ ·)

/-- The lambda `run_parallel` (`transform.h` 269-275) for the bins `[b, e)`. -/
def runBlock (seekFuel fuel : Nat) (m : BinnedIndex N) (b e : Int) : Option (List (Vec N)) :=
  match m.setIndex seekFuel b, m.setIndex seekFuel e with
  | some x, some y => run seekFuel fuel x y
  | _, _ => none

/-- Parameters of one operand (`ElementArrayViewParams`, `element_array_view.h` 63-95):
strides in the bin dims and, for binned operands, the strides of the buffer and the
`(begin, end)` pairs of the bins. -/
structure Operand where
  strides : List Int
  bins : Option (List Int × (Int → Int × Int))

/-- Constructor with bins (`multi_index.cpp` 134-161) up to the loading of the first bin.
`sliceIdx` is `inner_dims.index(slice_dim)`. The check `validate_bin_indices` is modelled
separately. -/
def make0 (innerDims binDims : Dims) (sliceIdx : Nat) (ops : Fin N → Operand) :
    Except Err (BinnedIndex N) := do
  let ins ← flattenDims (sliceIdx : Int) ndimOpMax
    (readDims innerDims (fun i => ((ops i).bins.map Prod.fst).getD []))
  let outs ← flattenDims 0 (ndimOpMax - ins.length) (readDims binDims (fun i => (ops i).strides))
  let outs' := if outs = [] then [(0, 0)] else outs
  .ok { data := 0, inner := ins, innerCoord := ins.map (fun _ => 0),
        outer := outs', outerCoord := outs'.map (fun _ => 0), scalar := outs = [],
        nested := ins.length - sliceIdx - 1,
        isBinned := fun i => (ops i).bins.isSome,
        indices := fun i => if Dims.volume binDims = 0 then none else (ops i).bins.map Prod.snd,
        binIndex := 0 }

/-- Constructor with bins (`multi_index.cpp` 134-161), complete. -/
def make (seekFuel : Nat) (innerDims binDims : Dims) (sliceIdx : Nat) (ops : Fin N → Operand) :
    Except Err (Option (BinnedIndex N)) := do
  let m0 ← make0 innerDims binDims sliceIdx ops
  let m := m0.loadAll
  .ok (if m.nestedSize = 0 ∨ Dims.volume binDims = 0 then seekBin seekFuel m else some m)

/-- Loop of `validate_bin_indices_impl` (`multi_index.cpp` 28-37), `n` rounds left. -/
def validateLoop (ind0 ind1 : Int → Int × Int) : Nat → MultiIndex 2 → Except Err Unit
  | 0, _ => .ok ()
  | n + 1, m =>
    let a := ind0 (m.data 0)
    let b := ind1 (m.data 1)
    if a.2 - a.1 ≠ b.2 - b.1 then .error .binned
    else validateLoop ind0 ind1 n (m.incrementBy 1)

/-- `validate_bin_indices_impl` (`multi_index.cpp` 19-38). -/
def validatePair (dims : Dims) (a b : List Int × (Int → Int × Int)) : Except Err Unit := do
  let m ← MultiIndex.make dims (Fin.cons a.1 (Fin.cons b.1 Fin.elim0))
  validateLoop a.2 b.2 (Dims.volume dims).toNat m

/-- `validate_bin_indices` (`multi_index.cpp` 40-52): the first argument is `param0`, the
list the remaining parameters. Per operand: strides in the bin dims and, if binned, the
`(begin, end)` pairs. -/
def validateAll (dims : Dims) : Operand → List Operand → Except Err Unit
  | _, [] => .ok ()
  | p0, p1 :: ps => do
    match p0.bins, p1.bins with
    | some b0, some b1 => validatePair dims (p0.strides, b0.2) (p1.strides, b1.2)
    | _, _ => .ok ()
    if p0.bins.isSome then validateAll dims p0 ps else validateAll dims p1 ps

end BinnedIndex

end Scipp
