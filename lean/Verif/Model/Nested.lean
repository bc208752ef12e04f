import Verif.Model.Sizes
/-
Variables with elements that are variables, and the check against reference cycles in assignments (`lib/variable/variable.cpp` 52-86).
-/
namespace Scipp.Nested

/-- A variable as a handle (`lib/variable/include/scipp/variable/variable.h`, `m_object` with `m_dims`, `m_strides`, `m_offset`): the array it shares ownership
of, and the positions in the array of the elements it refers to, in order (see `Verif.Model.View` for the computation of these). -/
structure Handle where
  obj : Nat
  elems : List Nat
  deriving DecidableEq, Repr

/-- The arrays by number. An array of dtype `Variable` has a slot per element, `none` standing for an invalid variable; other arrays are without
slots. The array is kept alive, with all of its slots, by any handle to it (`std::shared_ptr`, `variable.h` `VariableConceptHandle`). -/
abbrev Heap := List (List (Option Handle))

/-- An address of a variable (`&lhs` in `variable.cpp` 61): a variable of the program or an element of an array. -/
inductive Loc where
  | named (s : Nat)
  | slot (obj i : Nat)
  deriving DecidableEq, Repr

/-- The variable in a slot (`rhs.values<Variable>()`, `variable.cpp` 60). -/
def slotOf (h : Heap) (obj i : Nat) : Option Handle := ((h[obj]?).bind (·[i]?)).join

/-- The loop of `check_nested_in_assign` (`variable.cpp` 60-67), `nested` being the recursive call. -/
def checkElems (h : Heap) (lhs : Loc) (nested : Option Handle → Except Err Unit) (obj : Nat) : List Nat → Except Err Unit
  | [] => .ok ()
  | i :: rest =>
    if lhs = .slot obj i then .error .invalidArgument
    else
      match nested (slotOf h obj i) with
      | .error e => .error e
      | .ok () => checkElems h lhs nested obj rest

/-- `check_nested_in_assign` (`variable.cpp` 53-68). The recursion of the program is not bounded; running out of `fuel` is running out of stack. A handle to an array
without slots is one of another dtype. -/
def check (h : Heap) (lhs : Loc) : Nat → Option Handle → Except Err Unit
  | _, none => .ok ()
  | 0, some _ => .error .ub
  | fuel + 1, some rhs => checkElems h lhs (check h lhs fuel) rhs.obj rhs.elems

/-- The arrays, and the variables of the program (`lib/variable/include/scipp/variable/variable.h`, class `Variable`). -/
structure State where
  heap : Heap
  vars : Nat → Option Handle

/-- The variable at an address (a `Variable &`, as in `variable.cpp` 71-74). -/
def State.get (s : State) : Loc → Option Handle
  | .named n => s.vars n
  | .slot obj i => slotOf s.heap obj i

/-- The members assigned in `operator=` (`variable.cpp` 77-83); flags are left out. -/
def State.put (s : State) (x : Option Handle) : Loc → State
  | .named n => { s with vars := fun m => if m = n then x else s.vars m }
  | .slot obj i => { s with heap := s.heap.set obj ((s.heap.getD obj []).set i x) }

/-- `Variable::operator=` (`variable.cpp` 71-84), from a copy of the handle (71-73). -/
def assign (fuel : Nat) (s : State) (lhs : Loc) (rhs : Option Handle) : Except Err State :=
  match check s.heap lhs fuel rhs with
  | .error e => .error e
  | .ok () => .ok (s.put rhs lhs)

/-- What a program does with such variables: make a new one of `n` invalid elements, assign one to another or to an element, and take a slice, that is a handle with
some of the elements (`Variable::slice`, `variable.cpp`; assigned to a variable of the program). -/
inductive Op where
  | make (name n : Nat)
  | assign (lhs src : Loc)
  | slice (name : Nat) (src : Loc) (keep : List Nat)

/-- One step of a program (`makeVariable<Variable>`, `variable.cpp` 71-84, `Variable::slice`). -/
def step (fuel : Nat) (s : State) : Op → Except Err State
  | .make name n => .ok ⟨s.heap ++ [List.replicate n none], fun m => if m = name then some ⟨s.heap.length, List.range n⟩ else s.vars m⟩
  | .assign lhs src => Nested.assign fuel s lhs (s.get src)
  | .slice name src keep => Nested.assign fuel s (.named name) ((s.get src).map fun x => ⟨x.obj, x.elems.filter (keep.contains ·)⟩)

/-- A program (a sequence of calls of the functions modelled by `step`, e.g. `variable.cpp` 71-84); a step that throws changes nothing. -/
def run (fuel : Nat) : State → List Op → State
  | s, [] => s
  | s, op :: rest =>
    match step fuel s op with
    | .ok s' => run fuel s' rest
    | .error _ => run fuel s rest

end Scipp.Nested
