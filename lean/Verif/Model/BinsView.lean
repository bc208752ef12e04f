import Verif.Model.Sizes

/-!
Access to the contents of bins: `bins_view<DataArray>(var)`, i.e., `.bins.coords[...]`,
`.bins.masks[...]` and `.bins.data` in Python.

The data array holding the events is shared between all variables that refer to it: slices of a
binned variable, and shallow copies.  The model therefore has a heap of event tables.
-/

namespace Scipp.BinsView

open Scipp

/-- An item of the event table, i.e., a coord or a mask of the buffer
(lib/dataset/include/scipp/dataset/sized_dict.h:50-165).  Simplified: the buffer is 1-D, as it is
for all event data made by scipp itself, so that an item either does not depend on the event
dimension or has a list of values along it. -/
inductive Item (V : Type) where
  | scalar (x : V)
  | along (xs : List V)
  deriving DecidableEq, Repr

/-- The data array that holds the events (`BinArrayModel<DataArray>::m_buffer`,
lib/variable/include/scipp/variable/bin_array_model.h:52-112).  Keys are numbers.  `readonly` is the
flag of the dicts of coords and of masks, and of the data array (lib/dataset/data_array.cpp:78-86),
simplified to one flag.  Attributes are a third dict that behaves like the other two and is left
out. -/
structure Table (V : Type) where
  data : List V
  coords : List (Nat × Item V)
  masks : List (Nat × Item V)
  readonly : Bool
  deriving DecidableEq, Repr

/-- All event tables that exist, by address (`m_object` of `Variable`,
lib/variable/include/scipp/variable/variable.h:160-170, is a shared pointer). -/
abbrev Heap (V : Type) := Nat → Table V

/-- A variable of dtype `bin<DataArray>` (lib/variable/include/scipp/variable/bin_array_model.h:22-112):
the begin and end of each bin as seen through dims, strides and offset of the variable
(lib/variable/variable.cpp:322-326), the dimension of the events, and the address of the table.
Simplified: the bins are listed in the order of iteration, the outer dimensions are left out. -/
structure Binned where
  idx : List (Nat × Nat)
  dim : Nat
  ref : Nat
  readonly : Bool
  deriving DecidableEq, Repr

/-- A variable of dtype `bin<Variable>`, with its own handle to a buffer
(lib/variable/include/scipp/variable/bin_array_model.h:22-112). -/
structure Column (V : Type) where
  idx : List (Nat × Nat)
  dim : Nat
  buffer : Item V
  readonly : Bool
  deriving DecidableEq, Repr

/-- Which dict of the table a view looks at: `get_coords` or `get_masks`
(lib/dataset/include/scipp/dataset/sized_dict.h:193-197). -/
inductive Which where
  | coords | masks
  deriving DecidableEq, Repr

/-- `m_map(this->buffer())` (lib/dataset/include/scipp/dataset/bins_view.h:117-118). -/
def Table.dict {V : Type} (t : Table V) : Which → List (Nat × Item V)
  | .coords => t.coords
  | .masks => t.masks

/-- The table with one dict replaced (the dict is modified in place through the reference returned
by lib/dataset/include/scipp/dataset/bins_view.h:118). -/
def Table.withDict {V : Type} (t : Table V) (w : Which) (d : List (Nat × Item V)) : Table V :=
  match w with
  | .coords => { t with coords := d }
  | .masks => { t with masks := d }

/-- Change of the table at one address, seen by everything that refers to it
(`T &Variable::bin_buffer()`, lib/variable/include/scipp/variable/bin_array_variable.tcc:61-63). -/
def Heap.put {V : Type} (h : Heap V) (a : Nat) (t : Table V) : Heap V :=
  fun b => if b = a then t else h b

/-- `Dict::operator[]` / `SizedDict::at` (lib/dataset/sized_dict.cpp:157-172). -/
def dictAt {V : Type} (d : List (Nat × Item V)) (k : Nat) : Except Err (Item V) :=
  match d.lookup k with
  | some x => .ok x
  | none => .error .notFound

/-- `Dict::insert_or_assign` (lib/core/include/scipp/core/dict.h:275-283). -/
def dictAssign {V : Type} (d : List (Nat × Item V)) (k : Nat) (x : Item V) : List (Nat × Item V) :=
  match d with
  | [] => [(k, x)]
  | p :: ps => if p.1 = k then (k, x) :: ps else p :: dictAssign ps k x

/-- `Dict::extract` without the value (lib/core/include/scipp/core/dict.h:287-294): keys are unique,
so the entry found is the only one. -/
def dictErase {V : Type} (d : List (Nat × Item V)) (k : Nat) : List (Nat × Item V) :=
  match d with
  | [] => []
  | p :: ps => if p.1 = k then ps else p :: dictErase ps k

/-- The check of dims in `SizedDict::set` (lib/dataset/sized_dict.cpp:236-249) for a table of `n`
events and an item over the event dimension: length `n`, or `n + 1`, which is taken to be bin
edges. -/
def dimsFit {V : Type} (n : Nat) : Item V → Bool
  | .scalar _ => true
  | .along xs => decide (xs.length = n) || decide (xs.length = n + 1)

/-- `SizedDict::set` (lib/dataset/sized_dict.cpp:220-251).  Simplified: the early return when the very
same variable is already there is left out (it changes nothing), as is the refusal of binned
variables, since a `Column`'s buffer is dense. -/
def dictSet {V : Type} (t : Table V) (w : Which) (k : Nat) (x : Item V) : Except Err (Table V) :=
  if t.readonly then .error .readonly
  else if dimsFit t.data.length x then .ok (t.withDict w (dictAssign (t.dict w) k x))
  else .error .dimension

/-- `BinsCommon::make` (lib/dataset/include/scipp/dataset/bins_view.h:24-26) with
`make_bins_no_validate` (lib/variable/include/scipp/variable/bin_array_variable.tcc:237-242): indices
and dim of the variable, nothing is checked. -/
def make {V : Type} (x : Binned) (buffer : Item V) : Column V :=
  ⟨x.idx, x.dim, buffer, x.readonly⟩

/-- `BinsCommon::check_and_get_buf` (lib/dataset/include/scipp/dataset/bins_view.h:27-32). -/
def checkAndGetBuf {V : Type} (x : Binned) (v : Column V) : Except Err (Item V) :=
  if v.idx ≠ x.idx then .error .variable
  else if v.dim ≠ x.dim then .error .dimension
  else .ok v.buffer

/-- The non-const `bin_buffer` (lib/variable/include/scipp/variable/bin_array_variable.tcc:61-63)
goes through `Variable::data() &`, which refuses read-only variables
(lib/variable/variable.cpp:163-166). -/
def bufferMut {V : Type} (h : Heap V) (x : Binned) : Except Err (Table V) :=
  if x.readonly then .error .variable else .ok (h x.ref)

/-- `BinsMapView::operator[]` (lib/dataset/include/scipp/dataset/bins_view.h:63-65). -/
def get {V : Type} (h : Heap V) (x : Binned) (w : Which) (k : Nat) : Except Err (Column V) :=
  match dictAt ((h x.ref).dict w) k with
  | .error e => .error e
  | .ok item => .ok (make x item)

/-- `BinsMapView::set` (lib/dataset/include/scipp/dataset/bins_view.h:70-72).  C++ leaves open whether
`mapView()` or `check_and_get_buf` is evaluated first; the object of the call comes first in the
model. -/
def set {V : Type} (h : Heap V) (x : Binned) (w : Which) (k : Nat) (v : Column V) :
    Except Err (Heap V) :=
  match bufferMut h x with
  | .error e => .error e
  | .ok t =>
    match checkAndGetBuf x v with
    | .error e => .error e
    | .ok item =>
      match dictSet t w k item with
      | .error e => .error e
      | .ok t' => .ok (h.put x.ref t')

/-- `BinsMapView::extract` (lib/dataset/include/scipp/dataset/bins_view.h:67-69), `_pop` in Python:
`SizedDict::extract` (lib/dataset/sized_dict.cpp:257-261) and `make`. -/
def extract {V : Type} (h : Heap V) (x : Binned) (w : Which) (k : Nat) :
    Except Err (Heap V × Column V) :=
  match bufferMut h x with
  | .error e => .error e
  | .ok t =>
    if t.readonly then .error .readonly
    else match dictAt (t.dict w) k with
      | .error e => .error e
      | .ok item => .ok (h.put x.ref (t.withDict w (dictErase (t.dict w) k)), make x item)

/-- `BinsMapView::erase` (lib/dataset/include/scipp/dataset/bins_view.h:66), `del` in Python:
`SizedDict::erase` (lib/dataset/sized_dict.cpp:252-255) extracts and drops the value. -/
def erase {V : Type} (h : Heap V) (x : Binned) (w : Which) (k : Nat) : Except Err (Heap V) :=
  match extract h x w k with
  | .error e => .error e
  | .ok r => .ok r.1

/-- What iteration hands out for an item: a binned variable or a dense copy. -/
inductive Seen (V : Type) where
  | bins (c : Column V)
  | dense (x : Item V)
  deriving DecidableEq, Repr

/-- `make_value` (lib/dataset/include/scipp/dataset/bins_view.h:41-49), applied by `values()` and
`items()` (bins_view.h:73-88). -/
def makeValue {V : Type} (x : Binned) : Item V → Seen V
  | .along xs => .bins (make x (.along xs))
  | .scalar a => .dense (.scalar a)

/-- `items_begin`, `items_end` (lib/dataset/include/scipp/dataset/bins_view.h:73-88). -/
def items {V : Type} (h : Heap V) (x : Binned) (w : Which) : List (Nat × Seen V) :=
  ((h x.ref).dict w).map (fun p => (p.1, makeValue x p.2))

/-- `Bins::data` (lib/dataset/include/scipp/dataset/bins_view.h:126). -/
def data {V : Type} (h : Heap V) (x : Binned) : Column V :=
  make x (.along (h x.ref).data)

/-- `Bins::setData` (lib/dataset/include/scipp/dataset/bins_view.h:128-130) with `DataArray::setData`
(lib/dataset/data_array.cpp:78-86): the dims must be the same, no edges.  The early return for the
same variable is left out, as in `dictSet`. -/
def setData {V : Type} (h : Heap V) (x : Binned) (v : Column V) : Except Err (Heap V) :=
  match bufferMut h x with
  | .error e => .error e
  | .ok t =>
    match checkAndGetBuf x v with
    | .error e => .error e
    | .ok item =>
      if t.readonly then .error .readonly
      else match item with
        | .scalar _ => .error .dimension
        | .along xs =>
          if xs.length = t.data.length then .ok (h.put x.ref { t with data := xs })
          else .error .dimension

/-- One bin of a column: `buffer.slice({dim, begin, end})`
(lib/variable/include/scipp/variable/bin_array_model.h:89-96 with the element access of
lib/core/include/scipp/core/element_array_view.h:150-215).  Slicing refuses a buffer without the
dimension and ranges beyond the end (`core::expect::validSlice`, lib/core/slice.cpp and
lib/core/sizes.cpp). -/
def binOf {V : Type} (buffer : Item V) (p : Nat × Nat) : Except Err (List V) :=
  match buffer with
  | .scalar _ => .error .slice
  | .along xs =>
    if p.1 ≤ p.2 ∧ p.2 ≤ xs.length then .ok ((xs.drop p.1).take (p.2 - p.1))
    else .error .slice

/-- The values of a binned variable, one list per bin (`values<bucket<T>>()`,
lib/variable/include/scipp/variable/bin_array_model.h:89-96). -/
def Column.values {V : Type} (c : Column V) : Except Err (List (List V)) :=
  c.idx.mapM (binOf c.buffer)

/-- `BinsMapView::operator==` (lib/dataset/include/scipp/dataset/bins_view.h:101-103) with
`SizedDict::operator==` (lib/dataset/sized_dict.cpp:111-119). -/
def viewEq {V : Type} [DecidableEq V] (h : Heap V) (x y : Binned) (w : Which) : Bool :=
  let a := (h x.ref).dict w
  let b := (h y.ref).dict w
  decide (a.length = b.length) && a.all (fun p => b.lookup p.1 == some p.2)

/-- `Variable::slice` along the bins (lib/variable/variable.cpp:186-203), restricted to a range: the
slice refers to the same object and stays writable. -/
def sliceBins (x : Binned) (first last : Nat) : Binned :=
  { x with idx := (x.idx.drop first).take (last - first) }

end Scipp.BinsView
