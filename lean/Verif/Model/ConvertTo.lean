import Verif.Model.Sizes
/-
Conversion of unit and dtype at once: `to` (`src/scipp/core/operations.py`), with `to_unit` and `astype` (`lib/variable/to_unit.cpp`, `lib/variable/astype.cpp`).

Conversion of values between dtypes, and from one unit to another in a dtype, are any functions, which may fail. A buffer is identified by a number; those of new objects are given.
-/
namespace Scipp.ConvertTo
open Scipp

/-- Dtypes which matter, and others (`src/scipp/core/operations.py` 301-314). -/
inductive DT where
  | int32
  | int64
  | float32
  | float64
  | other (k : Nat)
deriving DecidableEq

/-- A variable: dtype of elements, whether it is binned, unit, values, and buffer (`src/scipp/core/operations.py` 292-319). -/
structure Var (V U : Type) where
  elem : DT
  binned : Bool
  unit : U
  val : V
  buf : Nat
deriving DecidableEq

/-- `var.dtype` as seen in Python: that of bins if it is binned (`src/scipp/core/operations.py` 303-311). -/
def Var.dtype {V U : Type} (v : Var V U) : DT := if v.binned then .other 0 else v.elem

/-- `astype` (`lib/variable/astype.cpp` 69-73). -/
def astype {V U : Type} (cast : DT → DT → V → Except Err V) (v : Var V U) (d : DT) (copy : Bool) (fresh : Nat) : Except Err (Var V U) :=
  if d = v.elem then .ok (if copy then { v with buf := fresh } else v)
  else
    match cast v.elem d v.val with
    | .error e => .error e
    | .ok x => .ok { v with elem := d, val := x, buf := fresh }

/-- `to_unit` (`lib/variable/to_unit.cpp` 30-51, and the operation afterwards). -/
def toUnit {V U : Type} [DecidableEq U] (conv : DT → U → U → V → Except Err V) (v : Var V U) (u : U) (copy : Bool) (fresh : Nat) : Except Err (Var V U) :=
  if u = v.unit then .ok (if copy then { v with buf := fresh } else v)
  else
    match conv v.elem v.unit u v.val with
    | .error e => .error e
    | .ok x => .ok { v with unit := u, val := x, buf := fresh }

/-- The choice of order (`src/scipp/core/operations.py` 301-314). -/
def dtypeFirst (own target : DT) : Bool :=
  if target = .float64 then true
  else if own = .float64 then false
  else if target = .float32 then true
  else if own = .float32 then false
  else if own = .int64 ∧ target = .int32 then false
  else if own = .int32 ∧ target = .int64 then true
  else true

/-- `to` (`src/scipp/core/operations.py` 292-319); `f1`, `f2` are buffers of objects created by the first and second call. -/
def convertTo {V U : Type} [DecidableEq U] (cast : DT → DT → V → Except Err V) (conv : DT → U → U → V → Except Err V) (v : Var V U) (unit : Option U) (dtype : Option DT) (copy : Bool) (f1 f2 : Nat) : Except Err (Var V U) :=
  match unit, dtype with
  | none, none => .error .invalidArgument
  | some u, none => toUnit conv v u copy f1
  | none, some d => astype cast v d copy f1
  | some u, some d =>
    if dtypeFirst v.dtype d then
      match astype cast v d copy f1 with
      | .error e => .error e
      | .ok w => toUnit conv w u false f2
    else
      match toUnit conv v u copy f1 with
      | .error e => .error e
      | .ok w => astype cast w d false f2

end Scipp.ConvertTo
