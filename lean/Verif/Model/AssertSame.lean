import Verif.Model.Sizes
import Mathlib.Algebra.Order.Ring.Rat
/-
`assert_identical` (`src/scipp/testing/assertions.py`).

A dense variable is given by its sizes, unit, dtype, and values in row-major order, `none` being NaN. Values are numbers. Binned data is given by the number of events of every bin and a table with the events of
all bins one after the other; the table is a data array with dense columns without attrs. Names are numbers. Data groups, other objects and messages are not modelled. The result is whether no exception is raised.
-/
namespace Scipp.AssertSame
open Scipp

/-- A dense variable (`lib/variable/include/scipp/variable/variable.h`): labels with lengths, unit, dtype, values, and variances; `none` is NaN. -/
structure Dense where
  sizes : List (Dim × Nat)
  unit : Nat
  dtype : Nat
  vals : List (Option ℚ)
  vars : Option (List (Option ℚ))
  deriving DecidableEq

/-- A dict of variables with their alignment (`assertions.py` 179-195). -/
abbrev Columns := List (Nat × Dense × Bool)

/-- A table of events: a data array (`bins.concat().value`, `assertions.py` 236). -/
structure Table where
  data : Dense
  coords : Columns
  masks : Columns
  deriving DecidableEq

/-- A variable: dense, or binned with the number of events of every bin and the events of all bins in order (`assertions.py` 214-218, 233-236). -/
inductive Data where
  | dense (d : Dense)
  | binned (sizes : List (Dim × Nat)) (counts : List Nat) (table : Table)
  deriving DecidableEq

/-- A dict of variables with their alignment (`assertions.py` 179-195). -/
abbrev Meta := List (Nat × Data × Bool)

/-- A data array: data, coords, masks, and attrs (`assertions.py` 165-168, 205). -/
structure Arr where
  data : Data
  coords : Meta
  masks : Meta
  attrs : Meta
  deriving DecidableEq

/-- A dataset; the items contain the coords as well (`assertions.py` 171-172). -/
structure Set' where
  items : List (Nat × Arr)
  coords : Meta
  deriving DecidableEq

/-- An object to compare (`assertions.py` 143-147, 202-211). -/
inductive Obj where
  | var (v : Data)
  | arr (a : Arr)
  | set (s : Set')
  deriving DecidableEq

/-- Comparison of Python dicts of sizes (`src/scipp/testing/assertions.py` 151; `lib/python/bind_data_access.h` 480-493): the order does not matter. -/
def sizesEq (a b : List (Dim × Nat)) : Bool := a.length == b.length && a.all (fun p => b.contains p)

/-- `numpy.testing.assert_array_equal` (documentation of NumPy): shapes are the same or one is a scalar, elements are equal or both NaN. -/
def arrayEqual (shape : List Nat) (x : List (Option ℚ)) (shape' : List Nat) (y : List (Option ℚ)) : Bool :=
  if shape = shape' then x == y
  else if shape = [] then y.all (fun e => [e] == x)
  else if shape' = [] then x.all (fun e => [e] == y)
  else false

/-- `_assert_identical_variable_structure` (`assertions.py` 150-162) for dense variables. -/
def denseStructure (a b : Dense) : Bool := sizesEq a.sizes b.sizes && a.unit == b.unit && a.dtype == b.dtype && a.vars.isSome == b.vars.isSome

/-- `_assert_identical_dense_variable_data` (`assertions.py` 221-230). Variances compared to `None` are equal only if there are none. -/
def denseData (a b : Dense) : Bool :=
  arrayEqual (a.sizes.map (·.2)) a.vals (b.sizes.map (·.2)) b.vals &&
  match a.vars with
  | none => true
  | some va =>
    match b.vars with
    | none => va.isEmpty
    | some vb => arrayEqual (a.sizes.map (·.2)) va (b.sizes.map (·.2)) vb

/-- The entry of a dict, `b[name]` (`assertions.py` 193). -/
def entry {α : Type} (m : List (Nat × α)) (n : Nat) : Option α := (m.find? (fun e => e.1 == n)).map (·.2)

/-- `_assert_mapping_eq` (`assertions.py` 184-195). Equality of keys does not depend on the order (`lib/python/view.h` 66-70, 90-94). -/
def mappingEq {α : Type} (f : α → α → Bool) (a b : List (Nat × α)) : Bool :=
  (a.length == b.length && a.all (fun e => (b.map (·.1)).contains e.1)) &&
  a.all (fun e => match entry b e.1 with
    | some y => f e.2 y
    | none => false)

/-- `_assert_identical_impl` and `_assert_identical_alignment` for dense variables in a dict (`assertions.py` 122-127, 179-195). -/
def denseEntry (x y : Dense × Bool) : Bool := denseStructure x.1 y.1 && denseData x.1 y.1 && x.2 == y.2

/-- `_assert_identical_impl` for tables, which are data arrays (`assertions.py` 122-127, 165-168, 204-205). Simplified: tables have no attrs. -/
def tableImpl (a b : Table) : Bool := mappingEq denseEntry a.coords b.coords && mappingEq denseEntry a.masks b.masks && denseData a.data b.data

/-- `_assert_identical_variable_structure` (`assertions.py` 150-162). The unit of binned data is always `None`, its dtype that of a table. -/
def varStructure : Data → Data → Bool
  | .dense a, .dense b => denseStructure a b
  | .binned s _ t, .binned s' _ t' => sizesEq s s' && t.data.unit == t'.data.unit
  | _, _ => false

/-- `_assert_identical_variable_data` (`assertions.py` 214-236): binned data is concatenated first. Simplified: numbers are never equal to tables, though NumPy takes arrays without elements as equal. -/
def varData : Data → Data → Bool
  | .dense a, .dense b => denseData a b
  | .binned _ _ t, .binned _ _ t' => tableImpl t t'
  | _, _ => false

/-- `_assert_identical_impl` for variables (`assertions.py` 122-127). -/
def varImpl (a b : Data) : Bool := varStructure a b && varData a b

/-- `_assert_identical_impl` and `_assert_identical_alignment` for variables in a dict (`assertions.py` 122-127, 179-195). -/
def varEntry (x y : Data × Bool) : Bool := varImpl x.1 y.1 && x.2 == y.2

/-- `_assert_identical_impl` for data arrays (`assertions.py` 122-127, 165-168, 204-205). -/
def arrImpl (a b : Arr) : Bool :=
  mappingEq varEntry a.coords b.coords && mappingEq varEntry a.attrs b.attrs && mappingEq varEntry a.masks b.masks && varData a.data b.data

/-- `_assert_identical_impl` for datasets (`assertions.py` 171-172, 206-207): the items only. -/
def setImpl (a b : Set') : Bool := mappingEq arrImpl a.items b.items

/-- `assert_identical` (`assertions.py` 73-127, 139-147, 198-211) raises no exception. Not modelled: data groups and other objects (175-176, 208-211), error messages (102-119, 297-305). -/
def passes : Obj → Obj → Bool
  | .var a, .var b => varImpl a b
  | .arr a, .arr b => arrImpl a b
  | .set a, .set b => setImpl a b
  | _, _ => false

end Scipp.AssertSame
