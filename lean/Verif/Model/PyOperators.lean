import Verif.Model.Sizes
/-!
Operators in Python: which function of the library `a op b` and `a op= b` call, and with which operands
(`lib/python/bind_operators.h`, `lib/python/variable.cpp`, `lib/python/dataset.cpp`).
-/
namespace Scipp.PyOps
open Scipp

/-- The classes with operators (`variable.cpp` 84-107, `dataset.cpp` 104-121, 280-289); `DataGroup` is written in Python and not modelled. -/
inductive Cls
  | variable
  | array
  | dataset
  deriving DecidableEq, Repr

/-- Operands of operators in Python, as the bound methods (`bind_operators.h` 151-401) receive them. `obj c i` is object number `i`. `int` are instances of `int` (including `bool`) and objects with `__index__`
(such as NumPy integers); `float` are instances of `float` (including `numpy.float64`); `floatLike` are all other objects that `float()` accepts and that
have no `__index__` (such as `numpy.float32`, fractions and NumPy arrays with one element); `other` is everything else, such as strings. -/
inductive PyObj (F : Type)
  | obj (c : Cls) (i : Nat)
  | int (n : Int)
  | float (x : F)
  | floatLike (x : F)
  | other
  deriving DecidableEq

/-- The operators bound by `OpBinder` (`bind_operators.h` 149-313) and `bind_logical` (368-401). -/
inductive Op
  | add | sub | mul | div | floorDiv | mod | pow
  | eq | ne | lt | gt | le | ge
  | or | xor | and
  deriving DecidableEq, Repr

/-- Kinds of operators (`bind_operators.h` 217, 291, 368). -/
inductive Kind
  | arith
  | compare
  | logical
  deriving DecidableEq, Repr

/-- `binary` (`bind_operators.h` 217-252), `comparison` (291-313), `bind_logical` (368-401). -/
def Op.kind : Op → Kind
  | .add | .sub | .mul | .div | .floorDiv | .mod | .pow => .arith
  | .eq | .ne | .lt | .gt | .le | .ge => .compare
  | .or | .xor | .and => .logical

/-- Types of the second argument of bound methods (`Other`, `bind_operators.h` 150, 217, 254, 291). -/
inductive Arg
  | cls (c : Cls)
  | double
  | int64
  deriving DecidableEq, Repr

/-- `bind_binary_scalars` and the like (`bind_operators.h` 330-352): the overload for `double` comes first. -/
def scalars : List Arg := [.double, .int64]

/-- Not bound if one of the types is `Dataset` (`bind_operators.h` 189-190, 233-234, 270-271). -/
def Op.notForDatasets : Op → Bool
  | .floorDiv | .mod | .pow => true
  | _ => false

/-- Overloads of `__add__`, `__eq__`, `__or__`, … in the order of their definition: `Variable` (`variable.cpp` 93-107), `DataArray`
(`bind_data_array`, `dataset.cpp` 104-121), `Dataset` (`dataset.cpp` 286-289). -/
def forward (c : Cls) (op : Op) : List Arg :=
  match c, op.kind with
  | .variable, .arith => [.cls .variable, .cls .array] ++ scalars
  | .variable, .compare => [.cls .variable] ++ scalars
  | .variable, .logical => [.cls .variable]
  | .array, .arith => (if op.notForDatasets then [] else [.cls .dataset]) ++ [.cls .array, .cls .variable] ++ scalars
  | .array, .compare => [.cls .array, .cls .variable]
  | .array, .logical => [.cls .array, .cls .variable]
  | .dataset, .arith => if op.notForDatasets then [] else [.cls .dataset, .cls .array, .cls .variable] ++ scalars
  | .dataset, _ => []

/-- Overloads of `__radd__`, … (`reverse_binary`, `bind_operators.h` 254-290): `Variable` (`variable.cpp` 102), `DataArray` (`dataset.cpp` 114). -/
def reflected (c : Cls) (op : Op) : List Arg :=
  match c, op.kind with
  | .variable, .arith => scalars
  | .array, .arith => scalars
  | _, _ => []

/-- Overloads of `__iadd__`, `__ior__`, … (`in_place_binary`, `bind_operators.h` 151-214): `Variable` (`variable.cpp` 96-97, 107), `DataArray`
(`dataset.cpp` 108-109, 118-119, 284), `Dataset` (`dataset.cpp` 280-283). `__ipow__` is bound for variables only (`bind_operators.h` 205-213). -/
def inPlace (c : Cls) (op : Op) : List Arg :=
  match c, op.kind with
  | .variable, .arith => [.cls .variable] ++ scalars
  | .variable, .logical => [.cls .variable]
  | .array, .arith => if op = .pow then [] else [.cls .array, .cls .variable] ++ scalars
  | .array, .logical => [.cls .array, .cls .variable]
  | .dataset, .arith => if op.notForDatasets then [] else [.cls .dataset, .cls .array, .cls .variable] ++ scalars
  | _, _ => []

/-- An operand of a function of the library: an object, or a number as dimensionless scalar variable (`ScalarToVariable`,
`bind_operators.h` 143-147). -/
inductive Operand (F : Type)
  | obj (c : Cls) (i : Nat)
  | double (x : F)
  | int64 (n : Int)
  deriving DecidableEq

/-- Conversion of an argument without implicit conversions: the first pass of pybind11 2.13.5 over the overloads (external to the repository; version in
`lib/cmake/scipp-conan.cmake` 56). The bound methods that receive it are those of `bind_operators.h` 151-313. Integers must fit 64 bits. -/
def load {F : Type} : Arg → PyObj F → Option (Operand F)
  | .cls c, .obj c' i => if c = c' then some (.obj c i) else none
  | .double, .float x => some (.double x)
  | .int64, .int n => if -2 ^ 63 ≤ n ∧ n < 2 ^ 63 then some (.int64 n) else none
  | _, _ => none

/-- Conversion with implicit conversions, the second pass over the overloads of `bind_operators.h` 151-313: `double` accepts all that `float()` accepts.
`ofInt` is the conversion of integers to `double`, which fails for numbers that are too large. The conversion of a `Variable` by `Variable.__float__`
(`src/scipp/_binding.py` 97-105) is not needed: wherever `double` is accepted in `a op b` with a variable `b`, so is `Variable`. -/
def loadConvert {F : Type} (ofInt : Int → Option F) : Arg → PyObj F → Option (Operand F)
  | .double, .int n => (ofInt n).map .double
  | .double, .floatLike x => some (.double x)
  | a, o => load a o

/-- Overload resolution of the methods of `bind_operators.h` 151-401; `none` is `NotImplemented`, which `py::is_operator` requests. -/
def resolve {F : Type} (ofInt : Int → Option F) (args : List Arg) (o : PyObj F) : Option (Operand F) :=
  match args.findSome? (load · o) with
  | some x => some x
  | none => args.findSome? (loadConvert ofInt · o)

/-- What happens: a function of the library is called on two operands, the identity of the operands is compared (Python's default for `==` and `!=`; the
result is the `Bool`), or a `TypeError` is raised. -/
inductive Outcome (F : Type)
  | call (op : Op) (lhs rhs : Operand F)
  | identity (result : Bool)
  | typeError
  deriving DecidableEq

/-- The operator of which the method is called for the reflected comparison (Python language reference; methods of `bind_operators.h` 291-313). -/
def Op.mirror : Op → Op
  | .lt => .gt
  | .gt => .lt
  | .le => .ge
  | .ge => .le
  | op => op

/-- `a op b` in Python (external): the method of `a`, then the reflected method of `b` (`bind_operators.h` 217-313), then the default. Methods of
objects that are not of the library are assumed to return `NotImplemented`, as those of numbers do, and those of NumPy as `__array_ufunc__` is `None`
(`src/scipp/core/__init__.py` 88-94). -/
def eval {F : Type} [DecidableEq F] (ofInt : Int → Option F) (op : Op) (a b : PyObj F) : Outcome F :=
  let first : Option (Outcome F) :=
    match a with
    | .obj c i => (resolve ofInt (forward c op) b).map fun y => .call op (.obj c i) y
    | _ => none
  let second : Option (Outcome F) :=
    match b with
    | .obj c i =>
      if op.kind = .compare then (resolve ofInt (forward c op.mirror) a).map fun y => .call op.mirror (.obj c i) y
      else (resolve ofInt (reflected c op) a).map fun y => .call op y (.obj c i)
    | _ => none
  match first, second with
  | some r, _ => r
  | none, some r => r
  | none, none =>
    if op = .eq then .identity (decide (a = b)) else if op = .ne then .identity (decide (a ≠ b)) else .typeError

/-- What happens for `a op= b`: the object `a` is modified, or the name is bound to the result of `a op b`. -/
inductive Assign (F : Type)
  | modified (op : Op) (self : Cls × Nat) (rhs : Operand F)
  | rebound (result : Outcome F)
  deriving DecidableEq

/-- `a op= b` in Python (external): the in-place method (`bind_operators.h` 151-214, 379-401), or else `a = a op b`. -/
def evalInPlace {F : Type} [DecidableEq F] (ofInt : Int → Option F) (op : Op) (a b : PyObj F) : Assign F :=
  match a with
  | .obj c i =>
    match resolve ofInt (inPlace c op) b with
    | some y => .modified op (c, i) y
    | none => .rebound (eval ofInt op a b)
  | _ => .rebound (eval ofInt op a b)

end Scipp.PyOps
