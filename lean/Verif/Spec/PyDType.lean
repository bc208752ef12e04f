import Verif.Model.PyDType
/-!
Vocabulary for statements about dtypes and units of variables created in Python.
-/
namespace Scipp.PyDType
open Scipp
open _root_.Scipp.MUnit (one)
variable {n : Nat}

/-- All entries are units of time. -/
structure TimeTable.Ok (T : TimeTable n) : Prop where
  time : ∃ i, T.sec i ≠ 0
  base : ∀ u ∈ [T.s, T.us, T.ns, T.min, T.ms, T.h, T.D, T.M, T.Y], u.exps = T.sec

/-- The unit of time meant by a unit of NumPy. In NumPy, `m` are minutes and `M` months. -/
def TimeTable.of (T : TimeTable n) : NpTime → Option (PreciseUnit n)
  | .generic | .other => none
  | .s => some T.s
  | .us => some T.us
  | .ns => some T.ns
  | .m => some T.min
  | .ms => some T.ms
  | .h => some T.h
  | .D => some T.D
  | .M => some T.M
  | .Y => some T.Y

/-- The unit of time in the argument `dtype`. -/
def dtypeUnit (T : TimeTable n) : DtypeArg → Option (PreciseUnit n)
  | .numpy (.datetime t) => T.of t
  | _ => none

/-- The unit asked for by the arguments `unit` and `dtype`. -/
def wanted (T : TimeTable n) (unit : UnitArg n) (dtype : DtypeArg) : Option (PreciseUnit n) :=
  match unit with
  | .unit (some u) => if some u = (one : MUnit n) then dtypeUnit T dtype else some u
  | _ => dtypeUnit T dtype

/-- The arguments `unit` and `dtype` do not contradict each other, and the unit is one of time or dimensionless. -/
def NoConflict (T : TimeTable n) (unit : UnitArg n) (dtype : DtypeArg) : Prop :=
  dtype.dtype = .ok .void ∨ dtype.dtype = .ok .time ∧ dtype ≠ .numpy (.datetime .other) ∧ ∀ u w, unit = .unit u → dtypeUnit T dtype = some w → u = some w

/-- A unit that datetimes may have. -/
def TimeOrOne (T : TimeTable n) (unit : UnitArg n) : Prop :=
  ∀ u, unit = .unit u → u = one ∨ ∃ p, u = some p ∧ p.exps = T.sec

/-- The unit of datetimes of NumPy; those without unit are dimensionless. -/
def valueUnit (T : TimeTable n) (t : NpTime) : MUnit n :=
  match T.of t with
  | some u => some u
  | none => one

/-- The unit of the new variable: the one asked for, or else the given one. -/
def chosenUnit (T : TimeTable n) (unit : UnitArg n) (dtype : DtypeArg) (otherwise : MUnit n) : MUnit n :=
  match wanted T unit dtype with
  | some u => some u
  | none => otherwise

/-- The dtype of a variable: the one asked for, or that of the values, or that of the variances. -/
def resultType (asked values variances : DT) : DT :=
  if asked ≠ .void then asked else if values ≠ .void then values else variances

/-- The unit if none is given: numbers are dimensionless, other elements have no unit. -/
def defaultUnit (t : DT) : MUnit n :=
  if t ∈ [DT.float64, .float32, .int64, .int32, .time] then one else none

/-- The given unit, or that for elements of type `t`. -/
def givenUnit (unit : UnitArg n) (t : DT) : MUnit n :=
  match unit with
  | .unit u => u
  | .default => defaultUnit t

/-- Elements of type `a` can be used for a variable of type `b`. -/
def Convertible (a b : DT) : Prop :=
  a = b ∨ (a ∈ [.int64, .int32, .float64, .float32, .bool] ∧ b ∈ [.int64, .int32, .float64, .float32, .bool]) ∨ b = .pyObject ∨
    ((a = .int64 ∨ a = .int32) ∧ b = .time)

end Scipp.PyDType
