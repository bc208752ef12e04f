import Verif.Model.Heap
import Verif.Model.Index
import Verif.Model.Special
/-
Model of `nan_to_num` on variables of floating-point numbers: the element functions
(`lib/core/include/scipp/core/element/special_values.h` 74-128), the operations with output argument
(`lib/variable/special_values.cpp` 11-31) and the two functions bound to Python
(`lib/python/unary.cpp` 26-63), on top of the model of variables sharing buffers (`Model/Heap`).
-/
namespace Scipp.NanToNum

open Special

variable {U : Type}

/-- Condition of `nan_to_num_out_arg` (`special_values.h` 96-100; `isnan` of a value with variance looks at
the value, `value_and_variance.h` 109-112). -/
def testNan (y : Ext) : Bool := y.isnan

/-- Condition of `positive_inf_to_num_out_arg` (`special_values.h` 110-116). -/
def testPosInf (y : Ext) : Bool := y.isinf && Ext.lt (.fin 0) y

/-- Condition of `negative_inf_to_num_out_arg` (`special_values.h` 126-132). -/
def testNegInf (y : Ext) : Bool := y.isinf && Ext.lt y (.fin 0)

/-- Variance belonging to an element, if the object has variances; without variances the result is
not used. -/
def varianceAt (o : Obj U Ext) (a : Int) : Ext :=
  match o.variances with
  | some b => b.at_ a
  | none => .nan

/-- The elements written by the transform: for every element of `out`, `x = test(y) ? repl : y`
(`special_values.h` 96-132). Reads see the buffers before the transform: arguments that share the
buffer with `out` but are not the identical view are rejected before (`overlapping`), for the identical view
every element is read before it is written. -/
def newElems (test : Ext → Bool) (ox : Obj U Ext) (vx : View) (orep : Obj U Ext) (vrep : View) (dims : Dims) :
    List ((Dim → Int) × Ext × Ext) :=
  (List.range (Dims.volume dims).toNat).map fun k : Nat =>
    let c := coordsOf dims (k : Int)
    if test (ox.values.at_ (vx.addr c)) then
      (c, orep.values.at_ (vrep.addr c), varianceAt orep (vrep.addr c))
    else (c, ox.values.at_ (vx.addr c), varianceAt ox (vx.addr c))

/-- `overlaps(out, handle)` (`transform.h` 474-480, 617; `element_array_view.h` 149-153). -/
def overlapping (ho h : Handle) : Bool := decide (ho.obj = h.obj) && View.overlaps ho.view h.view

/-- `transform_in_place(out, var, replacement, …)` (`special_values.cpp` 11-31, `transform.h` 612-690): dims of the
arguments are included in those of the output, the units of argument and replacement are equal
and become that of the output, all or none have variances, no overlap unless identical. All
errors occur before anything is written. Simplified: a single dtype, no binned data. -/
def replaceInto [DecidableEq U] (test : Ext → Bool) (s : Heap U Ext) (x rep out : Nat) : Except Err (Heap U Ext) :=
  match s.vars[x]?, s.vars[rep]?, s.vars[out]? with
  | some hx, some hr, some ho =>
    match s.objs[hx.obj]?, s.objs[hr.obj]?, s.objs[ho.obj]? with
    | some ox, some orep, some oo =>
      if (Sizes.includes ho.view.dims hx.view.dims && Sizes.includes ho.view.dims hr.view.dims) = false then
        .error .dimension
      else if ox.unit ≠ orep.unit then .error .unit
      else if oo.unit ≠ ox.unit ∧ isSlice ho.view oo.values.size = true then .error .unit
      else if ho.view.readonly = true then .error .variable
      else if (ox.variances.isSome == oo.variances.isSome && orep.variances.isSome == oo.variances.isSome) = false then
        .error .variances
      else if (overlapping ho hx || overlapping ho hr) = true then .error .runtime
      else match s.exec (.write out (newElems test ox hx.view orep hr.view ho.view.dims)) with
        | .error e => .error e
        | .ok s' => s'.exec (.setUnit out ox.unit)
    | _, _, _ => .error .ub
  | _, _, _ => .error .notFound

/-- One of the `if (nan) nan_to_num(…)` statements (`unary.cpp` 33-38, 51-56). -/
def ifGiven [DecidableEq U] (test : Ext → Bool) (s : Heap U Ext) (x : Nat) (rep : Option Nat) (out : Nat) :
    Except Err (Heap U Ext) :=
  match rep with
  | none => .ok s
  | some r => replaceInto test s x r out

/-- `nan_to_num(x, *, nan, posinf, neginf)` (`unary.cpp` 27-45). `Variable out(x)` is the copy constructor
of `Variable`, which shares the buffer. Result: the state afterwards and the number of the
returned variable. -/
def nanToNum [DecidableEq U] (s : Heap U Ext) (x : Nat) (nan posinf neginf : Option Nat) :
    Except Err (Heap U Ext × Nat) := do
  let s0 ← s.exec (.derive x .same)
  let out := s.vars.length
  let s1 ← ifGiven testNan s0 out nan out
  let s2 ← ifGiven testPosInf s1 out posinf out
  let s3 ← ifGiven testNegInf s2 out neginf out
  .ok (s3, out)

/-- `nan_to_num(x, *, nan, posinf, neginf, out)` (`unary.cpp` 46-62). -/
def nanToNumOut [DecidableEq U] (s : Heap U Ext) (x : Nat) (nan posinf neginf : Option Nat) (out : Nat) :
    Except Err (Heap U Ext) := do
  let s1 ← ifGiven testNan s x nan out
  let s2 ← ifGiven testPosInf s1 x posinf out
  ifGiven testNegInf s2 x neginf out

end Scipp.NanToNum
