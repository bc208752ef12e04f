import Verif.Model.MultiIndex
import Mathlib.Logic.Function.Basic
/-
Model of the execution of elementwise operations on dense variables:
`lib/variable/include/scipp/variable/transform.h` and `accumulate.h`,
`lib/core/include/scipp/core/parallel-tbb.h`, `parallel-fallback.h`.

The element type is an arbitrary type `V` (for data with variances: pairs). Dispatch on
element types, units and checks of variances are not part of this file.
-/
namespace Scipp

/-- One call of the element function (`transform.h` `call` 154-166, `call_in_place`
179-193): the new content of one memory cell, computed from the memory at the time of
the call. -/
structure Step (V : Type) where
  cell : Int
  fn : (Int → V) → V

/-- Executing calls one after the other. -/
def runSteps {V : Type} : (Int → V) → List (Step V) → (Int → V)
  | mem, [] => mem
  | mem, s :: l => runSteps (Function.update mem s.cell (s.fn mem)) l

/-- Interleavings of the calls made by several threads: the next call is the first
outstanding one of any thread. (`tbb::parallel_for`, `parallel-tbb.h` 30-32. That each
call is one step is a simplification: calls of different threads never write to
a cell the other one uses, which is what the theorems show.) -/
inductive Interleaving {α : Type} : List (List α) → List α → Prop
  | done {ts} : (∀ t ∈ ts, t = []) → Interleaving ts []
  | step {pre t post x s} : Interleaving (pre ++ t :: post) s →
      Interleaving (pre ++ (x :: t) :: post) (x :: s)

/-- The integers `b, b + 1, …, e - 1`. -/
def intRange (b e : Int) : List Int := (List.range (e - b).toNat).map (fun (j : Nat) => b + j)

/-- How `tbb::parallel_for` may split the range `[0, n)` into blocks
(`parallel-tbb.h` 17-32): in any way such that every position is in exactly one block.
Grain size and affinity are not modelled, any splitting is allowed. The serial fallback
(`parallel-fallback.h`) is the case of one block. -/
def IsSplit (n : Int) (blocks : List (Int × Int)) : Prop :=
  (∀ b ∈ blocks, 0 ≤ b.1 ∧ b.1 ≤ b.2 ∧ b.2 ≤ n) ∧
  (blocks.flatMap (fun b => intRange b.1 b.2)).Perm (intRange 0 n)

/-- `parallel_for(blocked_range(0, n), body)`: `mem'` is a possible final memory. -/
def ParallelFor {V : Type} (n : Int) (body : Int → Int → Option (List (Step V)))
    (mem mem' : Int → V) : Prop :=
  ∃ blocks threads sched, IsSplit n blocks ∧
    blocks.mapM (fun b => body b.1 b.2) = some threads ∧
    Interleaving threads sched ∧ mem' = runSteps mem sched

/-- An operand: a view, and the buffer it refers to; `none` is the buffer that is
written to. (`VariableAccess` in `lib/variable/include/scipp/variable/visit.h` 16-33.) -/
structure Operand (V : Type) where
  view : View
  buf : Option (Int → V)

/-- Reading an element of an operand when the buffer written to has content `mem`. -/
def Operand.read {V : Type} (o : Operand V) (mem : Int → V) (a : Int) : V := (o.buf.getD mem) a

/-- `expectCanBroadcastFromTo` (`lib/core/element_array_view.cpp` 11-20). -/
def canBroadcastFromTo (source target : Dims) : Bool :=
  Dims.eqDims source target ||
  (target.all (fun p => !(Sizes.contains source p.1) ||
    match Sizes.at? source p.1 with
    | .ok n => !decide (n < p.2)
    | .error _ => true))

/-- `ElementArrayViewParams(other, iterDims)` (`element_array_view.cpp` 42-57), used by
`as_view` (`transform.h` 370-379): strides of an operand for iteration over `target`. -/
def asViewStrides (v : View) (target : Dims) : Except Err (List Int) :=
  if !canBroadcastFromTo v.dims target then .error .dimension
  else (Sizes.labels target).mapM (fun d =>
    if Sizes.contains v.dims d then do
      let i ← Sizes.index v.dims d
      .ok (v.strides.getD i 0)
    else .ok 0)

/-- `merge(a, b, c, …)` (`lib/core/include/scipp/core/dimensions.h` 87-90). -/
def mergeAll (a : Dims) (ds : List Dims) : Except Err Dims := ds.foldlM Dims.merge a

/-- Strides of all operands for the common dims (`transform.h` 428-429, 627-629). -/
def allStrides {V : Type} {N : Nat} (ins : Fin N → Operand V) (dims : Dims) :
    Except Err (Fin N → List Int) := do
  let l ← (List.finRange N).mapM (fun i => asViewStrides (ins i).view dims)
  .ok (fun i => l.getD i.val [])

/-- Bound on the number of rounds of the loop in `run` (`transform.h` 257) for a block. -/
def blockFuel (b e : Int) : Nat := (e - b).toNat + 1

/-- `call` (`transform.h` 154-166) for operand indices `idx`; the first operand is the
output. Indices are relative to the operand's offset (`ElementArrayView::data()`). -/
def callStep {V : Type} {N : Nat} (op : (Fin N → V) → V) (ins : Fin N → Operand V) (idx : Vec (N + 1)) :
    Step V :=
  ⟨idx 0, fun mem => op (fun i => (ins i).read mem ((ins i).view.offset + idx i.succ))⟩

/-- `call_in_place` (`transform.h` 179-193). -/
def callInPlaceStep {V : Type} {N : Nat} (op : V → (Fin N → V) → V) (out : View) (ins : Fin N → Operand V)
    (idx : Vec (N + 1)) : Step V :=
  ⟨out.offset + idx 0, fun mem =>
    op (mem (out.offset + idx 0)) (fun i => (ins i).read mem ((ins i).view.offset + idx i.succ))⟩

/-- `Transform::operator()` (`transform.h` 410-431) with `transform_elements` (251-279):
`dims` and `mem'` are the dims and a possible content of the result, where
`mem` is the initial content of the freshly created output. The result is stored in row-major order
(`variableFactory().create`). Variances and units are not modelled here. -/
def Transform {V : Type} {N : Nat} (op : (Fin (N + 1) → V) → V) (ins : Fin (N + 1) → Operand V)
    (dims : Dims) (mem mem' : Int → V) : Prop :=
  mergeAll (ins 0).view.dims ((List.finRange N).map (fun i => (ins i.succ).view.dims)) = .ok dims ∧
  ∃ strides m, allStrides ins dims = .ok strides ∧
    MultiIndex.make dims (Fin.cons (rowMajor (Sizes.shape dims)) strides) = .ok m ∧
    ParallelFor (Dims.volume dims)
      (fun b e => (m.runBlock (blockFuel b e) b e).map (List.map (callStep op ins))) mem mem'

/-- `has_stride_zero` (`multi_index.h` 172-177): the first operand has stride zero in one of
the dims left after flattening. `dims = []` is `m_ndim == 0`. -/
def hasStrideZero {N : Nat} (dims : Dims) (m : MultiIndex (N + 1)) : Bool :=
  !dims.isEmpty && m.dims.any (fun p => p.2 0 == 0)

/-- `transform_in_place_impl` (`transform.h` 489-529). The dims of the iteration are those
of the view of the first operand. -/
def transformInPlaceImpl {V : Type} {N : Nat} (op : V → (Fin N → V) → V) (out : View) (ins : Fin N → Operand V)
    (dims : Dims) (m : MultiIndex (N + 1)) (mem mem' : Int → V) : Prop :=
  if hasStrideZero dims m then
    ∃ calls, MultiIndex.run (blockFuel 0 (Dims.volume dims)) m (m.setIndex (Dims.volume dims)) = some calls ∧
      mem' = runSteps mem (calls.map (callInPlaceStep op out ins))
  else
    ParallelFor (Dims.volume dims)
      (fun b e => (m.runBlock (blockFuel b e) b e).map (List.map (callInPlaceStep op out ins))) mem mem'

/-- `copy(var)` as used by `clone` (`visit.h` 31, `lib/variable/operations.cpp` 20-25): a new
contiguous buffer holding the elements of the view, with the same dims. Modelled by its
effect. -/
def Operand.clone {V : Type} (o : Operand V) (mem : Int → V) : Operand V :=
  ⟨View.fresh o.view.dims, some (fun k => o.read mem (o.view.addr (coordsOf o.view.dims k)))⟩

/-- `overlaps(out, handle)` (`transform.h` 474-480, `element_array_view.h` 149-153): only
views of the same buffer can overlap. -/
def Operand.overlaps {V : Type} (out : View) (o : Operand V) : Bool :=
  o.buf.isNone && View.overlaps out o.view

/-- Common dims, strides and index (`transform.h` 626-629, 491-493). -/
def inPlaceSetup {V : Type} {N : Nat} (out : View) (ins : Fin N → Operand V) :
    Except Err (Dims × MultiIndex (N + 1)) := do
  let dims ← mergeAll out.dims ((List.finRange N).map (fun i => (ins i).view.dims))
  let s0 ← asViewStrides out dims
  let strides ← allStrides ins dims
  let m ← MultiIndex.make dims (Fin.cons s0 strides)
  .ok (dims, m)

/-- `TransformInPlace::operator()` (`transform.h` 610-630). `r` is a possible outcome:
an exception or the final content of the buffer of `out`. -/
def TransformInPlace {V : Type} {N : Nat} (op : V → (Fin N → V) → V) (out : View) (ins : Fin N → Operand V)
    (mem : Int → V) (r : Except Err (Int → V)) : Prop :=
  let anyOverlap := (List.finRange N).any (fun i => Operand.overlaps out (ins i))
  if anyOverlap ∧ N ≠ 1 then r = .error .runtime
  else
    let ins' := if anyOverlap then fun i => (ins i).clone mem else ins
    match inPlaceSetup out ins' with
    | .error e => r = .error e
    | .ok (dims, m) => ∃ mem', transformInPlaceImpl op out ins' dims m mem mem' ∧ r = .ok mem'

/-- `in_place::transform` (`transform.h` 645-683) reduced to the checks of dims
(`expect::includes`) and writability (non-const `Variable::data`,
`variable.cpp` 163-166, 334-337), followed by the above. -/
def transformInPlace {V : Type} {N : Nat} (op : V → (Fin N → V) → V) (out : View) (ins : Fin N → Operand V)
    (mem : Int → V) (r : Except Err (Int → V)) : Prop :=
  if (List.finRange N).any (fun i => !Sizes.includes out.dims (ins i).view.dims) then r = .error .dimension
  else if out.readonly then r = .error .readonly
  else TransformInPlace op out ins mem r

end Scipp
