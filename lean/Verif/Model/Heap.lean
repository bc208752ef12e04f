import Verif.Model.View
import Mathlib.Logic.Function.Basic
/-
Model of variables sharing buffers: `Variable` (`lib/variable/include/scipp/variable/variable.h`
155-171: dims, strides, offset, shared pointer `m_object`, `m_readonly`) and
`ElementArrayModel` (`lib/variable/include/scipp/variable/element_array_model.h` 60-175: unit, values,
optional variances).

The element type `V` and the type of units `U` are arbitrary; all objects have the same element
type. Binned data, structured element types and nested variables are not part of this
file, and neither is `m_aligned`.
-/
namespace Scipp

/-- `element_array<T>`: a length and elements. -/
structure Buffer (V : Type) where
  size : Int
  at_ : Int → V

/-- `ElementArrayModel<T>` (`element_array_model.h` 60-175; `m_unit` in `variable_concept.h` 66). -/
structure Obj (U V : Type) where
  unit : U
  values : Buffer V
  variances : Option (Buffer V)

/-- `Variable`: a view and a reference to an object (index into the list of objects stands for
`m_object`). -/
structure Handle where
  obj : Nat
  view : View
  deriving DecidableEq

/-- Everything reachable by a program: objects, and variables by number. Objects are never
destroyed in the model. -/
structure Heap (U V : Type) where
  objs : List (Obj U V)
  vars : List Handle

/-- View operations of `Variable` (`variable.cpp` 185-281, 328-332, `shape.cpp` 161-168). `same` is
the copy constructor (`variable.h` 59). -/
inductive ViewOp
  | same
  | slice (p : Slice)
  | transpose (order : List Dim)
  | broadcast (target : Dims)
  | fold (dim : Dim) (target : Dims)
  | rename (names : List (Dim × Dim)) (strict : Bool)
  | squeeze (sel : Option (List Dim))
  | asConst

/-- Applying a view operation, see `View`. -/
def ViewOp.apply : ViewOp → View → Except Err View
  | same, v => .ok v
  | slice p, v => v.slice p
  | transpose o, v => v.transpose o
  | broadcast t, v => v.broadcast t
  | fold d t, v => v.fold d t
  | rename ns b, v => v.renameDims ns b
  | squeeze s, v => v.squeeze s
  | asConst, v => .ok v.asConst

/-- Arguments the C++ types guarantee: slices made by a constructor of `Slice`, dims with
unique labels. -/
def ViewOp.Proper : ViewOp → Prop
  | slice p => p = Slice.none ∨ p.Constructed
  | broadcast t => (Sizes.labels t).Nodup ∧ ∀ p ∈ t, 0 ≤ p.2
  | _ => True

/-- The coordinates are within the dims. -/
def inDims (s : Dims) (c : Dim → Int) : Bool := s.all (fun p => decide (0 ≤ c p.1) && decide (c p.1 < p.2))

/-- One step of a program. -/
inductive HeapOp (U V : Type)
  /-- `Variable(unit, dims, values, variances)` (`variable.tcc` 81-88). -/
  | new (dims : Dims) (unit : U) (values : Int → V) (variances : Option (Int → V))
  /-- Derive a view of variable `i`. -/
  | derive (i : Nat) (op : ViewOp)
  /-- `flatten` of variable `i` (`shape.cpp` 102-132), which copies if it has to. -/
  | flatten (i : Nat) (labels : List Dim) (to_ : Dim)
  /-- `copy(var)` of variable `i` (`lib/variable/operations.cpp` 20-25). -/
  | deepCopy (i : Nat)
  /-- `operator=`: variable `i` becomes a shallow copy of variable `j` (`variable.cpp` 71-84). -/
  | assign (i j : Nat)
  /-- Write elements of variable `i`, at the given coordinates: assignments through
  `values()`, `variances()` (`variable.tcc` 90-105) and all in-place operations including
  `copy(src, out)`. What is written is arbitrary. -/
  | write (i : Nat) (elems : List ((Dim → Int) × V × V))
  /-- `setUnit` (`variable.cpp` 116-120). -/
  | setUnit (i : Nat) (u : U)
  /-- `setVariances` (`variable.cpp` 302-312) of variable `i` to variable `j`, or removing them. -/
  | setVariances (i : Nat) (j : Option Nat)

/-- Put an element into a buffer. -/
def Buffer.set {V : Type} (b : Buffer V) (a : Int) (x : V) : Buffer V := ⟨b.size, Function.update b.at_ a x⟩

variable {U V : Type}

/-- Write one element through a view. Outside the buffers is undefined behavior. -/
def Obj.write1 (o : Obj U V) (v : View) (e : (Dim → Int) × V × V) : Except Err (Obj U V) :=
  if inDims v.dims e.1 = false then .error .ub
  else if v.addr e.1 < 0 ∨ o.values.size ≤ v.addr e.1 then .error .ub
  else match o.variances with
    | none => .ok { o with values := o.values.set (v.addr e.1) e.2.1 }
    | some b =>
      if b.size ≤ v.addr e.1 then .error .ub
      else .ok { o with values := o.values.set (v.addr e.1) e.2.1, variances := some (b.set (v.addr e.1) e.2.2) }

/-- Write a list of elements. -/
def Obj.write (o : Obj U V) (v : View) : List ((Dim → Int) × V × V) → Except Err (Obj U V)
  | [] => .ok o
  | e :: l => match o.write1 v e with
    | .error x => .error x
    | .ok o' => o'.write v l

/-- Elements in row-major order of the view, in a new buffer (`copy`, `operations.cpp` 20-25,
`element_array_model.h` 164-170 and C12). -/
def Buffer.gather (b : Buffer V) (v : View) : Buffer V :=
  ⟨Dims.volume v.dims, fun k => b.at_ (v.addr (coordsOf v.dims k))⟩

/-- The copied object (`empty_like` keeps unit and presence of variances,
`element_array_variable.tcc` 55-64). -/
def Obj.gather (o : Obj U V) (v : View) : Obj U V :=
  ⟨o.unit, o.values.gather v, o.variances.map (fun b => b.gather v)⟩

/-- `Variable::is_slice` (`variable.cpp` 285-288). -/
def isSlice (v : View) (size : Int) : Bool := v.offset != 0 || Dims.volume v.dims != size

/-- `Variable::expect_writable` (`variable.cpp` 334-337). -/
def expectWritable (v : View) : Except Err Unit := if v.readonly then .error .variable else .ok ()

/-- `Variable::setUnit` (`variable.cpp` 108-120). -/
def Obj.setUnit [DecidableEq U] (o : Obj U V) (v : View) (u : U) : Except Err (Obj U V) :=
  match expectWritable v with
  | .error e => .error e
  | .ok () =>
    if o.unit ≠ u ∧ isSlice v o.values.size = true then .error .unit
    else .ok { o with unit := u }

/-- `Variable::setVariances` (`variable.cpp` 302-312) with `ElementArrayModel::setVariances`
(`element_array_variable.tcc` 128-140): the variances become a copy of *all* values of the
object the argument refers to. `src = none` is an invalid variable and removes the
variances. The element type is assumed to support variances. -/
def Obj.setVariances [DecidableEq U] (o : Obj U V) (v : View) (src : Option (Obj U V × View)) :
    Except Err (Obj U V) :=
  match expectWritable v with
  | .error e => .error e
  | .ok () =>
    if isSlice v o.values.size = true then .error .variances
    else match src with
      | none => .ok { o with variances := none }
      | some (s, w) =>
        if o.unit ≠ s.unit then .error .unit
        else if Dims.eqDims v.dims w.dims = false then .error .dimension
        else if s.variances.isSome then .error .variances
        else .ok { o with variances := some s.values }

/-- Replace an object. -/
def Heap.setObj (s : Heap U V) (k : Nat) (o : Obj U V) : Heap U V := { s with objs := s.objs.set k o }

/-- Add a variable referring to an existing object. -/
def Heap.addVar (s : Heap U V) (h : Handle) : Heap U V := { s with vars := s.vars ++ [h] }

/-- Add an object and a variable for it with given view. -/
def Heap.addObj (s : Heap U V) (o : Obj U V) (v : View) : Heap U V :=
  ⟨s.objs ++ [o], s.vars ++ [⟨s.objs.length, v⟩]⟩

/-- Run `f` on the object of variable `i`, and store the modified object. -/
def Heap.modify (s : Heap U V) (i : Nat) (f : Obj U V → View → Except Err (Obj U V)) : Except Err (Heap U V) :=
  match s.vars[i]? with
  | none => .error .notFound
  | some h => match s.objs[h.obj]? with
    | none => .error .ub
    | some o => match f o h.view with
      | .error e => .error e
      | .ok o' => .ok (s.setObj h.obj o')

/-- Writing requires that the target is writable (`Variable::data() &`, `variable.cpp` 163-166). -/
def Obj.checkedWrite (l : List ((Dim → Int) × V × V)) (o : Obj U V) (v : View) : Except Err (Obj U V) :=
  match expectWritable v with
  | .error e => .error e
  | .ok () => o.write v l

/-- Object and view of a variable. -/
def Heap.lookup (s : Heap U V) (i : Nat) : Option (Obj U V × View) :=
  match s.vars[i]? with
  | none => none
  | some h => match s.objs[h.obj]? with
    | none => none
    | some o => some (o, h.view)

/-- Effect of one step; see `HeapOp` for the functions modelled. -/
def Heap.exec [DecidableEq U] (s : Heap U V) : HeapOp U V → Except Err (Heap U V)
  | .new dims u vals vars =>
    .ok (s.addObj ⟨u, ⟨Dims.volume dims, vals⟩, vars.map (fun f => ⟨Dims.volume dims, f⟩)⟩ (View.fresh dims))
  | .derive i op => match s.vars[i]? with
    | none => .error .notFound
    | some h => match op.apply h.view with
      | .error e => .error e
      | .ok v => .ok (s.addVar ⟨h.obj, v⟩)
  | .flatten i ls d => match s.vars[i]? with
    | none => .error .notFound
    | some h => match h.view.flatten? ls d with
      | .error e => .error e
      | .ok (some v) => .ok (s.addVar ⟨h.obj, v⟩)
      | .ok none => match s.objs[h.obj]? with
        | none => .error .ub
        | some o => match (View.fresh h.view.dims).flatten? ls d with
          | .ok (some v) => .ok (s.addObj (o.gather h.view) v)
          | .ok none => .error .logic
          | .error e => .error e
  | .deepCopy i => match s.lookup i with
    | none => .error .notFound
    | some (o, v) => .ok (s.addObj (o.gather v) (View.fresh v.dims))
  | .assign i j => match s.vars[j]? with
    | none => .error .notFound
    | some h => if i < s.vars.length then .ok { s with vars := s.vars.set i h } else .error .notFound
  | .write i l => s.modify i (Obj.checkedWrite l)
  | .setUnit i u => s.modify i (fun o v => o.setUnit v u)
  | .setVariances i none => s.modify i (fun o v => o.setVariances v none)
  | .setVariances i (some j) => match s.lookup j with
    | none => .error .notFound
    | some src => s.modify i (fun o v => o.setVariances v (some src))

/-- A program catches exceptions and continues in the unchanged state: none of the steps
modifies anything before its last check (`variable.cpp` 116-120, 302-312, 163-166). -/
def Heap.step [DecidableEq U] (s : Heap U V) (op : HeapOp U V) : Heap U V :=
  match s.exec op with
  | .ok s' => s'
  | .error _ => s

/-- Any sequence of steps. -/
def Heap.run [DecidableEq U] (s : Heap U V) (ops : List (HeapOp U V)) : Heap U V := ops.foldl Heap.step s

/-- Value of an element of variable `i`: `var.values<T>()[c]` (`variable.tcc` 90-92). -/
def Heap.value (s : Heap U V) (i : Nat) (c : Dim → Int) : Except Err V :=
  match s.lookup i with
  | none => .error .notFound
  | some (o, v) =>
    if v.addr c < 0 ∨ o.values.size ≤ v.addr c then .error .ub else .ok (o.values.at_ (v.addr c))

/-- Variance of an element of variable `i`: `var.variances<T>()[c]` (`variable.tcc` 96-101). -/
def Heap.variance (s : Heap U V) (i : Nat) (c : Dim → Int) : Except Err V :=
  match s.lookup i with
  | none => .error .notFound
  | some (o, v) => match o.variances with
    | none => .error .variances
    | some b => if v.addr c < 0 ∨ b.size ≤ v.addr c then .error .ub else .ok (b.at_ (v.addr c))

/-- Unit of variable `i`. -/
def Heap.unit (s : Heap U V) (i : Nat) : Except Err U :=
  match s.lookup i with
  | none => .error .notFound
  | some (o, _) => .ok o.unit

end Scipp
