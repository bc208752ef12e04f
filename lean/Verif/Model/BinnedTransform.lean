import Verif.Model.Bins
/-
Model of elementwise operations with binned operands: `Transform::operator()` and `in_place::transform`
(`lib/variable/include/scipp/variable/transform.h`), the creation of the output
(`lib/variable/variable_factory.cpp`, `include/scipp/variable/bin_array_variable.tcc`,
`lib/variable/variable_instantiate_bin_elements.cpp`, `lib/dataset/variable_instantiate_bin_elements.cpp`).

`V` is the type of one element (for data with variances: pairs), `M` the type of the coords, attrs and masks of one row of a
table of events. Element types, units, the checks of variances (C31, C96) and buffers that are datasets are not part of this file.
-/
namespace Scipp.BinnedOps
variable {V M : Type} {N : Nat}

/-- The buffer of a binned variable (`bin_array_model.h` 109): the dim that is sliced by the bins, the view of its data, the memory
of the data and, for a buffer that is a data array, the coords, attrs and masks of every row. Coords that do not depend on the dim
are not modelled. -/
structure Events (V M : Type) where
  dim : Dim
  view : View
  vals : Int → V
  table : Option (List M)

/-- A binned variable (`BinArrayModel`, `bin_array_model.h` 52-110): a view of the index pairs, the memory of the index pairs, the buffer. -/
structure Binned (V M : Type) where
  view : View
  pairs : Int → Int × Int
  events : Events V M

/-- An operand of an elementwise operation (`VariableAccess`, `visit.h` 16-33). -/
inductive Operand (V M : Type) where
  | dense (view : View) (vals : Int → V)
  | binned (b : Binned V M)

/-- The view given by dims and strides of an operand (`array_params`, `bin_array_variable.tcc` 169-177, `variable.cpp`). -/
def Operand.view : Operand V M → View
  | .dense v _ => v
  | .binned b => b.view

/-- `is_bins` (`variable_factory.cpp` 96). -/
def Operand.bins? : Operand V M → Option (Binned V M)
  | .dense _ _ => none
  | .binned b => some b

/-- Bins in a data array: `dtype<bucket<DataArray>>` (`variable_factory.cpp` 17-21). -/
def Operand.table? : Operand V M → Option (Binned V M)
  | .dense _ _ => none
  | .binned b => if b.events.table.isSome then some b else none

/-- The operand that determines bins and metadata of the output: `VariableFactory::bin_dtype` (`variable_factory.cpp` 10-30) and
`bin_parent` (`bin_array_variable.tcc` 92-110). Without binned operands the output is not binned (`Err.logic` here: that case is
C12). -/
def binParent (ops : List (Operand V M)) : Except Err (Binned V M) :=
  match ops.filterMap Operand.table? with
  | [b] => .ok b
  | _ :: _ :: _ => .error .binned
  | [] => match ops.filterMap Operand.bins? with
    | b :: _ => .ok b
    | [] => .error .logic

/-- The index pairs of the parent for the dims of the output, in memory order (`copy(parent, indices)`,
`bin_array_variable.cpp` 12-13; the copy is modelled by its effect). -/
def parentPairs (parent : Binned V M) (dims : Dims) : Except Err (List (Int × Int)) := do
  let strides ← asViewStrides parent.view dims
  .ok ((List.range (Dims.volume dims).toNat).map (fun k : Nat =>
    parent.pairs (parent.view.offset + addrAux dims strides (coordsOf dims k))))

/-- The output before the operation: dims, memory of the index pairs, dims of the buffer and, if it is a table, its rows. -/
structure Created (M : Type) where
  dims : Dims
  indices : List (Int × Int)
  dim : Dim
  eventDims : Dims
  table : Option (List M)

/-- `BinVariableMaker::create` (`bin_array_variable.tcc` 126-140) with `contiguous_indices` (`bin_array_variable.cpp` 10-21) and
`call_make_bins` (`lib/variable/variable_instantiate_bin_elements.cpp` 23-32, `lib/dataset/variable_instantiate_bin_elements.cpp`
91-124). `init` is the content of the rows made by `resize_default_init`. -/
def create (init : Nat → M) (dims : Dims) (ops : List (Operand V M)) : Except Err (Created M) := do
  let parent ← binParent ops
  let old ← parentPairs parent dims
  let indices := Bins.contiguousLoop 0 old
  let size := Bins.sizeFromEnds (indices.map Prod.snd)
  let eventDims ← Sizes.resize parent.events.view.dims parent.events.dim size
  match parent.events.table with
  | none => .ok ⟨dims, indices, parent.events.dim, eventDims, none⟩
  | some rows =>
    if !Dims.eqDims parent.view.dims dims then .error .runtime
    else if Dims.eqDims parent.events.view.dims [(parent.events.dim, Dims.volume eventDims)] && decide (indices = old) then
      .ok ⟨dims, indices, parent.events.dim, eventDims, some rows⟩
    else do
      let rows' ← Bins.copyRows rows ((List.range (Dims.volume eventDims).toNat).map init) (old.zip indices)
      .ok ⟨dims, indices, parent.events.dim, eventDims, some rows'⟩

/-- Parameters of an operand for the iteration (`array_params`, `bin_array_variable.tcc` 169-177; `as_view`, `transform.h`
370-379), given its strides for the common dims. -/
def params (o : Operand V M) (strides : List Int) : BinnedIndex.Operand :=
  ⟨strides, o.bins?.map (fun b => (b.events.view.strides, fun k => b.pairs (b.view.offset + k)))⟩

/-- Parameters of the freshly created output. -/
def Created.params (r : Created M) : BinnedIndex.Operand :=
  ⟨rowMajor (Sizes.shape r.dims), some (rowMajor (Sizes.shape r.eventDims), fun k => r.indices.getD k.toNat (0, 0))⟩

/-- Strides of the inputs for the common dims (`transform.h` 428-429). -/
def strides (ins : Fin N → Operand V M) (dims : Dims) : Except Err (Fin N → List Int) :=
  allStrides (fun i => (⟨(ins i).view, none⟩ : Scipp.Operand V)) dims

/-- Bound for the rounds of `seek_bin` (`multi_index.h` 257-261). -/
def seekFuel (dims : Dims) : Nat := (Dims.volume dims).toNat

/-- Bound for the rounds of the loop in `run` (`transform.h` 257): the number of rows in all bins. -/
def runFuel (dims : Dims) (p : BinnedIndex.Operand) : Nat :=
  ((List.range (Dims.volume dims).toNat).map (fun k : Nat =>
    match p.bins with
    | some (_, f) => ((f (addrAux dims p.strides (coordsOf dims k))).2 - (f (addrAux dims p.strides (coordsOf dims k))).1).toNat
    | none => 0)).sum + 1

/-- Constructor of `MultiIndex` for parameters of which the first are those of the output (`multi_index.h` 29-39,
`multi_index.cpp` 134-161); `none` if `seek_bin` does not end. `eventDims` and `dim` are taken from the first binned operand, the
output (`get_nested_dims` and `get_slice_dim`): the dims of the buffers of other operands are not looked at. -/
def index (dims eventDims : Dims) (dim : Dim) (ps : Fin (N + 1) → BinnedIndex.Operand) : Except Err (Option (BinnedIndex (N + 1))) := do
  BinnedIndex.validateAll dims (ps 0) ((List.finRange N).map (fun i => ps i.succ))
  let k ← Sizes.index eventDims dim
  BinnedIndex.make (seekFuel dims) eventDims dims k ps

/-- Reading the element of an operand at an index relative to its first element (`ElementArrayView::data()`; for binned operands
`variable_factory.h` 95-101, whose view starts at the data of the buffer). -/
def Operand.read : Operand V M → Int → V
  | .dense v vals, a => vals (v.offset + a)
  | .binned b, a => b.events.vals (b.events.view.offset + a)

/-- `call` (`transform.h` 154-166); the first index is that of the output. -/
def callStep (op : (Fin N → V) → V) (ins : Fin N → Operand V M) (idx : Vec (N + 1)) : Step V :=
  ⟨idx 0, fun _ => op (fun i => (ins i).read (idx i.succ))⟩

/-- The part of `Transform::operator()` (`transform.h` 410-431) before the loop: dims, output and index. -/
def setup (init : Nat → M) (ins : Fin (N + 1) → Operand V M) :
    Except Err (Created M × (Fin (N + 2) → BinnedIndex.Operand) × Option (BinnedIndex (N + 2))) := do
  let dims ← mergeAll (ins 0).view.dims ((List.finRange N).map (fun i => (ins i.succ).view.dims))
  let r ← create init dims ((List.finRange (N + 1)).map ins)
  let st ← strides ins dims
  let ps : Fin (N + 2) → BinnedIndex.Operand := Fin.cons r.params (fun i => params (ins i) (st i))
  let m ← index dims r.eventDims r.dim ps
  .ok (r, ps, m)

/-- `Transform::operator()` (`transform.h` 410-431) with `transform_elements` (251-279) for binned output: `r` and `mem'` are a
possible result, `mem` is the initial content of the buffer of the output. -/
def Transform (op : (Fin (N + 1) → V) → V) (init : Nat → M) (ins : Fin (N + 1) → Operand V M) (r : Created M)
    (mem mem' : Int → V) : Prop :=
  ∃ ps m, setup init ins = .ok (r, ps, some m) ∧
    ParallelFor (Dims.volume r.dims)
      (fun b e => (m.runBlock (seekFuel r.dims) (runFuel r.dims (ps 0)) b e).map (List.map (callStep op ins))) mem mem'

/-! ### in place -/

/-- An input of an in-place operation; `shared` if its elements are in the memory that is written to. -/
structure Input (V M : Type) where
  operand : Operand V M
  shared : Bool

/-- Reading an element when the memory written to has content `mem`. -/
def Input.read (x : Input V M) (mem : Int → V) (a : Int) : V :=
  if x.shared then (match x.operand with
    | .dense v _ => mem (v.offset + a)
    | .binned b => mem (b.events.view.offset + a))
  else x.operand.read a

/-- The view used by `overlaps`: binned variables have offset 0 (`bin_array_variable.tcc` 173), whatever their bins. -/
def Operand.overlapView : Operand V M → View
  | .dense v _ => v
  | .binned b => { b.view with offset := 0 }

/-- `overlaps(out, handle)` (`transform.h` 474-480, `element_array_view.h` 149-153, `element_array_view.cpp` 66-83). -/
def Input.overlaps (out : Binned V M) (x : Input V M) : Bool :=
  x.shared && View.overlaps { out.view with offset := 0 } x.operand.overlapView

/-- `handles.clone()` (`transform.h` 619): the input no longer refers to the memory that is written. The layout of the copy of
binned data (C47) is simplified to that of the original. -/
def Input.clone (x : Input V M) (mem : Int → V) : Input V M :=
  if x.shared then ⟨match x.operand with
    | .dense v _ => .dense v mem
    | .binned b => .binned { b with events := { b.events with vals := mem } }, false⟩
  else x

/-- `call_in_place` (`transform.h` 179-193). -/
def callInPlaceStep (op : V → (Fin N → V) → V) (out : Binned V M) (ins : Fin N → Input V M) (idx : Vec (N + 1)) : Step V :=
  ⟨out.events.view.offset + idx 0, fun mem =>
    op (mem (out.events.view.offset + idx 0)) (fun i => (ins i).read mem (idx i.succ))⟩

/-- `has_stride_zero` (`multi_index.h` 172-177). Without bin dims, the last entry is not one of the dims of the index. -/
def hasStrideZero (m : BinnedIndex (N + 1)) : Bool :=
  m.inner.any (fun p => p.2 0 == 0) || (!m.scalar && m.outer.any (fun p => p.2 0 == 0))

/-- `transform_in_place_impl` (`transform.h` 489-529). -/
def transformInPlaceImpl (op : V → (Fin N → V) → V) (out : Binned V M) (ins : Fin N → Input V M) (dims : Dims)
    (ps : Fin (N + 1) → BinnedIndex.Operand) (m : BinnedIndex (N + 1)) (mem mem' : Int → V) : Prop :=
  if hasStrideZero m then
    ∃ e calls, m.setIndex (seekFuel dims) (Dims.volume dims) = some e ∧
      BinnedIndex.run (seekFuel dims) (runFuel dims (ps 0)) m e = some calls ∧
      mem' = runSteps mem (calls.map (callInPlaceStep op out ins))
  else
    ParallelFor (Dims.volume dims)
      (fun b e => (m.runBlock (seekFuel dims) (runFuel dims (ps 0)) b e).map (List.map (callInPlaceStep op out ins))) mem mem'

/-- Common dims, strides and index of an in-place operation (`transform.h` 626-629, 491-493). -/
def inPlaceSetup (out : Binned V M) (ins : Fin N → Input V M) :
    Except Err (Dims × (Fin (N + 1) → BinnedIndex.Operand) × Option (BinnedIndex (N + 1))) := do
  let dims ← mergeAll out.view.dims ((List.finRange N).map (fun i => (ins i).operand.view.dims))
  let s0 ← asViewStrides out.view dims
  let st ← strides (fun i => (ins i).operand) dims
  let ps : Fin (N + 1) → BinnedIndex.Operand :=
    Fin.cons (params (Operand.binned out) s0) (fun i => params (ins i).operand (st i))
  let m ← index dims out.events.view.dims out.events.dim ps
  .ok (dims, ps, m)

/-- `TransformInPlace::operator()` (`transform.h` 610-630). -/
def TransformInPlace (op : V → (Fin N → V) → V) (out : Binned V M) (ins : Fin N → Input V M) (mem : Int → V)
    (r : Except Err (Int → V)) : Prop :=
  let anyOverlap := (List.finRange N).any (fun i => (ins i).overlaps out)
  if anyOverlap ∧ N ≠ 1 then r = .error .runtime
  else
    let ins' := if anyOverlap then fun i => (ins i).clone mem else ins
    match inPlaceSetup out ins' with
    | .error e => r = .error e
    | .ok (dims, ps, some m) => ∃ mem', transformInPlaceImpl op out ins' dims ps m mem mem' ∧ r = .ok mem'
    | .ok (_, _, none) => False

/-- `in_place::transform` with binned output (`transform.h` 645-683): inputs with other dims are an error, as is a readonly
variable or buffer (`variable.cpp` 163-166, 334-337). The opposite case, binned inputs with dense output, is an error (650-654). -/
def transformInPlace (op : V → (Fin N → V) → V) (out : Binned V M) (ins : Fin N → Input V M) (mem : Int → V)
    (r : Except Err (Int → V)) : Prop :=
  if (List.finRange N).any (fun i => !Sizes.includes out.view.dims (ins i).operand.view.dims) then r = .error .dimension
  else if out.view.readonly || out.events.view.readonly then r = .error .readonly
  else TransformInPlace op out ins mem r

end Scipp.BinnedOps
