import Verif.Model.Sizes
import Mathlib.Logic.Function.Basic
/-
Model of the order of checks and modifications in in-place operations:
`lib/variable/include/scipp/variable/transform.h` 487-683 (in-place `transform`),
`lib/variable/variable.cpp` 206-236 (`setSlice`), `lib/templates/dataset_inplace.cpp.in`,
`lib/dataset/data_array.cpp` 136-159, `lib/dataset/dataset.cpp` 237-263, 340-375,
`lib/dataset/arithmetic.cpp` 21-82, `lib/dataset/sized_dict.cpp` 302-334.

The model is imperative: an operation may throw after it has modified something, so errors carry
the state at that time. Values of arrays are opaque (type `D`); which checks are made, and
in which order relative to the modifications, is what is modelled.
-/
namespace Scipp.InPlace
open Scipp

/-- Units and data of the objects variables refer to (`m_object`). -/
structure Obj (U D : Type) where
  unit : U
  data : D

/-- A `Variable`. Everything but unit and data is never modified by the operations considered
here. `slice_` is `is_slice()`; `bufSlice` is `is_slice()` of the variable on which `setUnit` is finally called: for
dense data the variable itself, for binned data the buffer
(`lib/variable/include/scipp/variable/bin_array_variable.tcc` 149-157). -/
structure Ref where
  obj : Nat
  dims : Dims
  dtype : Nat
  hasVar : Bool := false
  readonly : Bool := false
  slice_ : Bool := false
  bufSlice : Bool := false
  /-- Which part of the object's array the variable refers to (offset and strides), opaque. -/
  part : Nat := 0
  deriving DecidableEq

/-- `DataArray` (`data_array.h`). Coords are opaque: a name and a number standing for the
content. -/
structure DA where
  data : Ref
  coords : List (Nat × Nat)
  masks : List (Nat × Ref)
  masksReadonly : Bool := false
  deriving DecidableEq

/-- Program state: objects, next free object, the data arrays of the dataset on the
left-hand side (with their names). -/
structure State (U D : Type) where
  heap : Nat → Obj U D
  next : Nat
  arrays : List (Nat × DA)

/-- Result of an imperative operation: an error carries the state when it was thrown. -/
abbrev Res (U D : Type) := Except (Err × State U D) (State U D)

/-- An operation as passed to `transform_in_place`: effect on units, on data (as function of
all objects), supported combinations of dtypes, and two checks that depend on what is not
modified: `early` (binned operands and variance broadcasts, `transform.h` 657-670) and `late`
(construction of the `MultiIndex`, 491-492, which compares sizes of bins). -/
structure Op (U D : Type) where
  unit : U → U → Except Err U
  data : Ref → Ref → (Nat → Obj U D) → D
  types : Nat → Nat → Bool
  early : Ref → Ref → Option Err := fun _ _ => none
  late : Ref → Ref → Option Err := fun _ _ => none

variable {U D : Type}

/-- A check: throws without modifying anything. -/
def check (st : State U D) (ok : Bool) (e : Err) : Res U D := if ok then .ok st else .error (e, st)

/-- A check that reports which error to throw. -/
def checkOpt (st : State U D) : Option Err → Res U D
  | none => .ok st
  | some e => .error (e, st)

/-- Sequencing. -/
def andThen (r : Res U D) (f : State U D → Res U D) : Res U D :=
  match r with
  | .error e => .error e
  | .ok st => f st

/-- Write data of an object. -/
def State.setData (st : State U D) (k : Nat) (d : D) : State U D :=
  { st with heap := Function.update st.heap k ⟨(st.heap k).unit, d⟩ }

/-- Write the unit of an object. -/
def State.setUnit (st : State U D) (k : Nat) (u : U) : State U D :=
  { st with heap := Function.update st.heap k ⟨u, (st.heap k).data⟩ }

/-- `set_elem_unit` → `Variable::setUnit` (`variable.cpp` 108-120). -/
def setUnit [DecidableEq U] (a : Ref) (u : U) (st : State U D) : Res U D :=
  andThen (check st (!a.readonly) .variable) fun st =>
  andThen (check st (decide ((st.heap a.obj).unit = u) || !a.bufSlice) .unit) fun st =>
  .ok (st.setUnit a.obj u)

/-- The checks of in-place `transform` (`transform.h` 651-681) with `transform_data` (634-649) and
`do_transform_in_place` (530-596), in the order of the code: dims, binned and variance
broadcast, unit operation, `expect_can_set_elem_unit`, dtype, writable (`arg.values()`),
variances of the target, `MultiIndex`. Returns the new unit. -/
def checks [DecidableEq U] (op : Op U D) (a b : Ref) (ua ub : U) : Except Err U :=
  if Sizes.includes a.dims b.dims = false then .error .dimension else
  match op.early a b with
  | some e => .error e
  | none =>
    match op.unit ua ub with
    | .error e => .error e
    | .ok u =>
      if ua ≠ u ∧ a.slice_ then .error .unit else
      if op.types a.dtype b.dtype = false then .error .dtype else
      if a.readonly then .error .variable else
      if b.hasVar && !a.hasVar then .error .variances else
      match op.late a b with
      | some e => .error e
      | none => .ok u

/-- In-place `transform` (`transform.h` 651-681): checks, then (unless this is a dry run) the
data, then the unit. -/
def transformInPlace [DecidableEq U] (dry : Bool) (op : Op U D) (a b : Ref) (st : State U D) : Res U D :=
  match checks op a b (st.heap a.obj).unit (st.heap b.obj).unit with
  | .error e => .error (e, st)
  | .ok u => if dry then .ok st else setUnit a u (st.setData a.obj (op.data a b st.heap))

/-- A slice of a variable (`variable.cpp` 185-204): other dims, and in general a partial view. -/
def Ref.slice (a : Ref) (p : Slice) : Except Err Ref :=
  match Sizes.validSlice a.dims p with
  | .error e => .error e
  | .ok () => match (if p.stop = -1 then Sizes.erase a.dims p.dim else Sizes.slice a.dims p) with
    | .error e => .error e
    | .ok dims => .ok { a with dims, slice_ := true, bufSlice := true }

/-- `Variable::validateSlice` (`variable.cpp` 206-230). -/
def validateSlice [DecidableEq U] (a : Ref) (p : Slice) (b : Ref) (st : State U D) : Res U D :=
  match Sizes.validSlice a.dims p with
  | .error e => .error (e, st)
  | .ok () =>
    andThen (check st (a.hasVar == b.hasVar) .variances) fun st =>
    andThen (check st (decide ((st.heap a.obj).unit = (st.heap b.obj).unit)) .unit) fun st =>
    check st (a.dtype == b.dtype) .dtype

/-- The operation `copy(src, dest)` (`element_array_model.h` 164-170): the unit becomes the unit of the
source. -/
def copyOp (data : Ref → Ref → (Nat → Obj U D) → D) : Op U D :=
  { unit := fun _ u => .ok u, data := data, types := fun s t => s == t }

/-- `Variable::setSlice` (`variable.cpp` 232-236). -/
def setSliceVar [DecidableEq U] (copy : Ref → Ref → (Nat → Obj U D) → D) (a : Ref) (p : Slice) (b : Ref) (st : State U D) :
    Res U D :=
  andThen (validateSlice a p b st) fun st =>
  match a.slice p with
  | .error e => .error (e, st)
  | .ok s => transformInPlace false (copyOp copy) s b st

/-- Apply an operation for all items, stopping at the first error. -/
def forAll {α : Type} (f : α → State U D → Res U D) : List α → State U D → Res U D
  | [], st => .ok st
  | x :: l, st => andThen (f x st) (forAll f l)

/-- `expect::coords_are_superset` (`lib/dataset/except.cpp` 59-74), all coords aligned. -/
def coordsSuperset (a b : List (Nat × Nat)) : Bool := b.all (fun p => a.any (fun q => q == p))

/-- Find an entry. -/
def find {α : Type} (l : List (Nat × α)) (k : Nat) : Option α := (l.find? (fun p => p.1 == k)).map Prod.snd

/-- Replace the mask dictionary of data array `i` of the dataset. -/
def State.setMasks (st : State U D) (i : Nat) (masks : List (Nat × Ref)) : State U D :=
  { st with arrays := st.arrays.map (fun p => if p.1 = i then (p.1, { p.2 with masks }) else p) }

/-- Masks of data array `i`. -/
def State.masks (st : State U D) (i : Nat) : List (Nat × Ref) := ((find st.arrays i).map DA.masks).getD []

/-- Parameters of the operation `|` on masks: whether `a | b` differs from `a` (by content), which
dtype is `bool`, which unit is `none`. -/
structure MaskOps (U D : Type) where
  or_ : Op U D
  differs : Ref → Ref → (Nat → Obj U D) → Bool
  boolType : Nat
  none_ : U

/-- First loop of `union_or_in_place` (`dataset.cpp` 345-365): checks. The evaluation of
`it->second | item` in the check for read-only masks is represented by `differs` only. -/
def unionOrCheck [DecidableEq U] (mo : MaskOps U D) (i : Nat) (ro : Bool) (m : Nat × Ref) (st : State U D) : Res U D :=
  match find (st.masks i) m.1 with
  | none => check st (!ro) .notFound
  | some cur =>
    andThen (check st (!(cur.readonly && mo.differs cur m.2 st.heap)) .dimension) fun st =>
    andThen (check st (m.2.dtype == mo.boolType && cur.dtype == mo.boolType) .dtype) fun st =>
    check st (decide ((st.heap m.2.obj).unit = mo.none_) && decide ((st.heap cur.obj).unit = mo.none_)) .unit

/-- Second loop of `union_or_in_place` (`dataset.cpp` 367-374): modifications. -/
def unionOrApply [DecidableEq U] (mo : MaskOps U D) (i : Nat) (m : Nat × Ref) (st : State U D) : Res U D :=
  match find (st.masks i) m.1 with
  | none =>
    .ok (State.setMasks { st with heap := Function.update st.heap st.next (st.heap m.2.obj), next := st.next + 1 } i
      (st.masks i ++ [(m.1, { m.2 with obj := st.next, readonly := false, slice_ := false, bufSlice := false })]))
  | some cur => if cur.readonly then .ok st else transformInPlace false mo.or_ cur m.2 st

/-- `union_or_in_place` (`dataset.cpp` 340-375). -/
def unionOrInPlace [DecidableEq U] (mo : MaskOps U D) (i : Nat) (ro : Bool) (masks : List (Nat × Ref)) (st : State U D) : Res U D :=
  andThen (forAll (unionOrCheck mo i ro) masks st) (forAll (unionOrApply mo i) masks)

/-- `DataArray op= Variable` (`dataset_inplace.cpp.in` 12-15). -/
def arrayOpVar [DecidableEq U] (op : Op U D) (a : DA) (b : Ref) (st : State U D) : Res U D :=
  transformInPlace false op a.data b st

/-- `DataArray op= DataArray` (`dataset_inplace.cpp.in` 16-21) for data array `i`. -/
def arrayOp [DecidableEq U] (mo : MaskOps U D) (op : Op U D) (i : Nat) (b : DA) (st : State U D) : Res U D :=
  match find st.arrays i with
  | none => .error (.notFound, st)
  | some a =>
    andThen (check st (coordsSuperset a.coords b.coords) .dataset) fun st =>
    andThen (unionOrInPlace mo i a.masksReadonly b.masks st) fun st =>
    transformInPlace false op a.data b.data st

/-- `dry_run_op(DataArray, DataArray)` (`arithmetic.cpp` 21-31). -/
def dryRun [DecidableEq U] (op : Op U D) (i : Nat) (b : DA) (st : State U D) : Res U D :=
  match find st.arrays i with
  | none => .error (.notFound, st)
  | some a =>
    andThen (check st (coordsSuperset a.coords b.coords) .dataset) fun st =>
    transformInPlace true op a.data b.data st

/-- `Dataset op= Dataset` (`arithmetic.cpp` `apply` 33-40). -/
def datasetOp [DecidableEq U] (mo : MaskOps U D) (op : Op U D) (b : List (Nat × DA)) (st : State U D) : Res U D :=
  andThen (forAll (fun p => dryRun op p.1 p.2) b st) (forAll (fun p => arrayOp mo op p.1 p.2) b)

/-- `Dataset op= Variable` (`arithmetic.cpp` `apply_with_delay` 63-82): items sharing the object
of `b` are delayed, and only the last of them is kept. -/
def datasetOpVar [DecidableEq U] (op : Op U D) (b : Ref) (st : State U D) : Res U D :=
  andThen (forAll (fun p : Nat × DA => transformInPlace true op p.2.data b) st.arrays st) fun st =>
  andThen (forAll (fun p : Nat × DA => arrayOpVar op p.2 b) (st.arrays.filter (fun p => p.2.data.obj != b.obj)) st) fun st =>
  match (st.arrays.filter (fun p => p.2.data.obj == b.obj)).getLast? with
  | none => .ok st
  | some p => arrayOpVar op p.2 b st

/-- `SizedDict::validateSlice` for masks (`sized_dict.cpp` 302-321), one entry. `differs` compares
contents. -/
def validateMask (differs : Ref → Ref → (Nat → Obj U D) → Bool) (i : Nat) (p : Slice) (m : Nat × Ref) (st : State U D) : Res U D :=
  match find (st.masks i) m.1 with
  | none => .error (.notFound, st)
  | some cur =>
    check st (!((cur.readonly || !Sizes.contains cur.dims p.dim) && differs cur m.2 st.heap)) .dimension

/-- Loop of `SizedDict::setSlice` (`sized_dict.cpp` 327-332), one entry. -/
def setMaskSlice [DecidableEq U] (copy : Ref → Ref → (Nat → Obj U D) → D) (i : Nat) (p : Slice) (m : Nat × Ref) (st : State U D) : Res U D :=
  match find (st.masks i) m.1 with
  | none => .ok st
  | some cur =>
    if !cur.readonly && Sizes.contains cur.dims p.dim then setSliceVar copy cur p m.2 st else .ok st

/-- `SizedDict::setSlice` (`sized_dict.cpp` 324-334). -/
def setMasksSlice [DecidableEq U] (copy : Ref → Ref → (Nat → Obj U D) → D) (differs : Ref → Ref → (Nat → Obj U D) → Bool)
    (i : Nat) (p : Slice) (masks : List (Nat × Ref)) (st : State U D) : Res U D :=
  andThen (forAll (validateMask differs i p) masks st) (forAll (setMaskSlice copy i p) masks)

/-- `DataArray::setSlice` (`data_array.cpp` 142-154); `superset` is the result of the comparison of
coords. -/
def setSliceArray [DecidableEq U] (copy : Ref → Ref → (Nat → Obj U D) → D) (differs : Ref → Ref → (Nat → Obj U D) → Bool)
    (superset : DA → DA → Bool) (p : Slice) (i : Nat) (b : DA) (st : State U D) : Res U D :=
  match find st.arrays i with
  | none => .error (.notFound, st)
  | some a =>
    andThen (check st (superset a b) .dataset) fun st =>
    andThen (validateSlice a.data p b.data st) fun st =>
    andThen (setMasksSlice copy differs i p b.masks st) fun st =>
    setSliceVar copy a.data p b.data st

/-- `DataArray::validateSlice` (`data_array.cpp` 136-140). -/
def validateSliceArray [DecidableEq U] (differs : Ref → Ref → (Nat → Obj U D) → Bool) (superset : DA → DA → Bool)
    (p : Slice) (i : Nat) (b : DA) (st : State U D) : Res U D :=
  match find st.arrays i with
  | none => .error (.notFound, st)
  | some a =>
    andThen (check st (superset a b) .dataset) fun st =>
    andThen (validateSlice a.data p b.data st) fun st =>
    forAll (validateMask differs i p) b.masks st

/-- The item of the other dataset (`data.m_data.at(name)`). -/
def withItem (b : List (Nat × DA)) (f : Nat → DA → State U D → Res U D) (p : Nat × DA) (st : State U D) : Res U D :=
  match find b p.1 with
  | none => .error (.notFound, st)
  | some x => f p.1 x st

/-- `Dataset::setSlice(Slice, Dataset)` (`dataset.cpp` 237-246). The comparison of the dataset's own
coords is left out. -/
def setSliceDataset [DecidableEq U] (copy : Ref → Ref → (Nat → Obj U D) → D) (differs : Ref → Ref → (Nat → Obj U D) → Bool)
    (superset : DA → DA → Bool) (p : Slice) (b : List (Nat × DA)) (st : State U D) : Res U D :=
  andThen (forAll (withItem b (validateSliceArray differs superset p)) st.arrays st)
    (forAll (withItem b (setSliceArray copy differs superset p)) st.arrays)

/-- `Dataset::setSlice(Slice, Variable)` (`dataset.cpp` 259-263): no dry run. -/
def setSliceDatasetVar [DecidableEq U] (copy : Ref → Ref → (Nat → Obj U D) → D) (p : Slice) (b : Ref) (st : State U D) : Res U D :=
  forAll (fun (a : Nat × DA) => setSliceVar copy a.2.data p b) st.arrays st

end Scipp.InPlace
