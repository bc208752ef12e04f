import Verif.Model.Sizes
import Mathlib.Data.Rat.Floor
import Mathlib.Algebra.Field.Rat
/-
Ranges of numbers with units: `arange` and `linspace` (`src/scipp/core/variable.py`).

Numbers are rational. A unit is a kind (dimension) and a scale. `rnd` is the rounding of integers in `to_unit`. Not modelled: dates, `unit=None`, dtype of the result.
-/
namespace Scipp.Ranges
open Scipp

/-- A unit (`src/scipp/core/variable.py` 541-555). -/
structure RUnit where
  kind : Nat
  scale : ℚ
deriving DecidableEq

/-- A 0-D variable given as argument (`src/scipp/core/variable.py` 528-555): `int` is whether its dtype is an integer. -/
structure Var where
  value : ℚ
  unit : RUnit
  int : Bool
  variances : Bool
deriving DecidableEq

/-- An argument: number or variable (`src/scipp/core/variable.py` 559-576). -/
inductive Arg where
  | num (x : ℚ)
  | var (v : Var)
deriving DecidableEq

/-- `to_unit(val, unit, copy=False).value` (`src/scipp/core/variable.py` 553; see C59): integers are rounded. -/
def toUnit (rnd : ℚ → Int) (v : Var) (u : RUnit) : Except Err ℚ :=
  if v.unit = u then .ok v.value
  else if v.unit.kind ≠ u.kind then .error .unit
  else if v.int then .ok (rnd (v.value * v.unit.scale / u.scale))
  else .ok (v.value * v.unit.scale / u.scale)

/-- `toUnit` for an optional argument (`src/scipp/core/variable.py` 552-555). -/
def toUnit? (rnd : ℚ → Int) (u : RUnit) : Option Var → Except Err (Option ℚ)
  | none => .ok none
  | some v => match toUnit rnd v u with
    | .error e => .error e
    | .ok x => .ok (some x)

/-- The variable given as argument, if it is one (`src/scipp/core/variable.py` 563-567). -/
def Arg.var? : Arg → Option Var
  | .var v => some v
  | .num _ => none

/-- The number given as argument, if it is one (`src/scipp/core/variable.py` 576). -/
def Arg.num? : Arg → Option ℚ
  | .num x => some x
  | .var _ => none

/-- Start, stop, step as numbers, and unit (`src/scipp/core/variable.py` 559-576). -/
structure Norm where
  start : Option ℚ
  stop : Option ℚ
  step : Option ℚ
  unit : Option RUnit
deriving DecidableEq

/-- `_ensure_same_unit` (`src/scipp/core/variable.py` 541-555), arguments are variables or none. -/
def ensureSameUnit (rnd : ℚ → Int) (unit : Option RUnit) (start stop step : Option Var) : Except Err Norm :=
  let given := start.toList ++ stop.toList ++ step.toList
  let common : Except Err RUnit :=
    match unit, given with
    | some u, _ => .ok u
    | none, [] => .error .unit
    | none, v :: rest => if rest.all (fun w => w.unit == v.unit) then .ok v.unit else .error .unit
  match common with
  | .error e => .error e
  | .ok u =>
    match toUnit? rnd u start, toUnit? rnd u stop, toUnit? rnd u step with
    | .ok a, .ok b, .ok c => .ok ⟨a, b, c, some u⟩
    | .error e, _, _ => .error e
    | _, .error e, _ => .error e
    | _, _, .error e => .error e

/-- `_normalize_range_args` (`src/scipp/core/variable.py` 559-576); a missing unit is `default_unit`. -/
def normalize (rnd : ℚ → Int) (unit : Option RUnit) (start stop step : Option Arg) : Except Err Norm :=
  let given := start.toList ++ stop.toList ++ step.toList
  if given.any (fun a => a.var?.isSome) then
    if given.all (fun a => a.var?.isSome) = false then .error .dtype
    else if given.any (fun a => (a.var?.map (·.variances)).getD false) then .error .variances
    else ensureSameUnit rnd unit (start.bind Arg.var?) (stop.bind Arg.var?) (step.bind Arg.var?)
  else .ok ⟨start.bind Arg.num?, stop.bind Arg.num?, step.bind Arg.num?, unit⟩

/-- NumPy's `arange`, called at `src/scipp/core/variable.py` 876: with `start` only, it is the end; the step is one by default. -/
def npArange (start stop step : Option ℚ) : Except Err (List ℚ) :=
  match start with
  | none => .error .dtype
  | some s =>
    let a := if stop.isSome then s else 0
    let b := stop.getD s
    let d := step.getD 1
    if d = 0 then .error .invalidArgument
    else .ok ((List.range ⌈(b - a) / d⌉.toNat).map (fun (k : Nat) => a + k * d))

/-- `arange` (`src/scipp/core/variable.py` 776-880): values and unit. -/
def arange (rnd : ℚ → Int) (unit : Option RUnit) (start : Arg) (stop step : Option Arg) : Except Err (List ℚ × Option RUnit) :=
  match normalize rnd unit (some start) stop step with
  | .error e => .error e
  | .ok n =>
    match npArange n.start n.stop n.step with
    | .error e => .error e
    | .ok values => .ok (values, n.unit)

/-- `linspace` (`src/scipp/core/variable.py` 579-636) with `num` values; NumPy's `linspace` divides by one less if the end is included. -/
def linspace (rnd : ℚ → Int) (unit : Option RUnit) (start stop : Arg) (num : Nat) (endpoint : Bool) : Except Err (List ℚ × Option RUnit) :=
  match normalize rnd unit (some start) (some stop) none with
  | .error e => .error e
  | .ok n =>
    match n.start, n.stop with
    | some a, some b => .ok ((List.range num).map (fun (k : Nat) => a + k * ((b - a) / (if endpoint then (num : ℚ) - 1 else num))), n.unit)
    | _, _ => .error .dtype

end Scipp.Ranges
