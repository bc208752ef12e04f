import Verif.Model.ToUnit
/-!
The dtype and unit of variables created in Python, and datetimes (`lib/python/dtype.cpp`, `lib/python/unit.cpp`, `lib/python/numpy.cpp`,
`lib/python/variable_init.cpp`). Shapes and elements of other types are in `Verif.Model.Construct` and `Verif.Model.Numpy`.
-/
namespace Scipp.PyDType
open Scipp ToUnit
open _root_.Scipp.MUnit (one)
variable {n : Nat}

/-- Element types (`DType`, `lib/core/include/scipp/core/dtype.h`) known to Python (`dtype.cpp` 74-96); `void` stands for none. Types of
binned data are left out. -/
inductive DT where
  | void | float64 | float32 | int64 | int32 | bool | string | time | variable | dataArray | dataset | pyObject | structured (k : Nat)
deriving DecidableEq

/-- `is_int` (`lib/core/dtype.cpp` 11). -/
def DT.isInt : DT → Bool
  | .int64 | .int32 => true
  | _ => false

/-- `is_fundamental` (`lib/core/dtype.cpp` 17-19). -/
def DT.isFundamental : DT → Bool
  | .int64 | .int32 | .float64 | .float32 | .bool => true
  | _ => false

/-- `canHaveVariances` (`dtype.h` 107-113) for the types above. -/
def DT.canHaveVariances : DT → Bool
  | .float64 | .float32 => true
  | _ => false

/-- The unit of a `datetime64` of NumPy, the text in brackets (`dtype.cpp` 279-312): none, one of those that are supported, another one. -/
inductive NpTime where
  | generic | s | us | ns | m | ms | h | D | M | Y | other
deriving DecidableEq

/-- A dtype of NumPy: kind and size (`dtype.cpp` 25-44). -/
inductive NpKind where
  | float (bytes : Nat) | int (bytes : Nat) | bool | string | datetime (unit : NpTime) | object | unsupported
deriving DecidableEq

/-- The units of time, from the library of units, which is not part of the repository. -/
structure TimeTable (n : Nat) where
  sec : Fin n → Int
  s : PreciseUnit n
  us : PreciseUnit n
  ns : PreciseUnit n
  min : PreciseUnit n
  ms : PreciseUnit n
  h : PreciseUnit n
  D : PreciseUnit n
  M : PreciseUnit n
  Y : PreciseUnit n

/-- `scipp_dtype(py::dtype)` (`dtype.cpp` 123-152). -/
def ofNumpy : NpKind → Except Err DT
  | .float b => if b = 8 then .ok .float64 else if b = 4 then .ok .float32 else .error .runtime
  | .int b => if b = 8 then .ok .int64 else if b = 4 then .ok .int32 else .error .runtime
  | .bool => .ok .bool
  | .string => .ok .string
  | .datetime _ => .ok .time
  | .object => .ok .pyObject
  | .unsupported => .error .runtime

/-- `parse_datetime_dtype` (`dtype.cpp` 279-312). -/
def parseDatetime (T : TimeTable n) : NpKind → Except Err (MUnit n)
  | .datetime u =>
    match u with
    | .generic => .ok one
    | .s => .ok (some T.s)
    | .us => .ok (some T.us)
    | .ns => .ok (some T.ns)
    | .m => .ok (some T.min)
    | .ms => .ok (some T.ms)
    | .h => .ok (some T.h)
    | .D => .ok (some T.D)
    | .M => .ok (some T.M)
    | .Y => .ok (some T.Y)
    | .other => .error .invalidArgument
  | _ => .error .invalidArgument

/-- The argument `dtype`: `None`, a dtype of Scipp (or one of its classes), or what NumPy makes a dtype of (`dtype.cpp` 154-191). -/
inductive DtypeArg where
  | none | scipp (d : DT) | numpy (k : NpKind)

/-- `scipp_dtype(py::object)` (`dtype.cpp` 154-191). -/
def DtypeArg.dtype : DtypeArg → Except Err DT
  | .none => .ok .void
  | .scipp d => .ok d
  | .numpy k => ofNumpy k

/-- `parse_datetime_dtype` of the argument (`dtype.cpp` 314-326); a dtype of Scipp has no unit. -/
def DtypeArg.timeUnit (T : TimeTable n) : DtypeArg → Except Err (MUnit n)
  | .none => .error .invalidArgument
  | .scipp _ => .ok one
  | .numpy k => parseDatetime T k

/-- `ProtoUnit` (`lib/python/unit.h` 16-17): not given, or a unit, which is `none` for `None`. -/
inductive UnitArg (n : Nat) where
  | default | unit (u : MUnit n)

/-- `cast_dtype_and_unit` (`dtype.cpp` 199-222). -/
def castDtypeAndUnit (T : TimeTable n) (dtype : DtypeArg) (unit : UnitArg n) : Except Err (DT × Option (MUnit n)) :=
  match dtype.dtype with
  | .error e => .error e
  | .ok .time =>
    match dtype.timeUnit T with
    | .error e => .error e
    | .ok deduced =>
      match unit with
      | .default => .ok (.time, some deduced)
      | .unit u => if deduced ≠ one ∧ u ≠ deduced then .error .invalidArgument else .ok (.time, some u)
  | .ok d =>
    match unit with
    | .default => .ok (d, none)
    | .unit u => .ok (d, some u)

/-- What `dtype_of` distinguishes (`dtype.cpp` 97-121). `buffer` are arrays and scalars of NumPy; other objects with a buffer are left
out. -/
inductive PyClass where
  | buffer | bool | float | int | str | variable | dataArray | dataset | other
deriving DecidableEq

/-- An object given as `values` or `variances`: its class and the dtype of `py::array` of it. -/
structure PyObj where
  cls : PyClass
  kind : NpKind

/-- `dtype_of` (`dtype.cpp` 97-121) after `parse_data_sequence` (`variable_init.cpp` 132-140), which makes an array of the object if there
are dimension labels. -/
def dtypeOf (scalar : Bool) (x : Option PyObj) : Except Err DT :=
  match x with
  | none => .ok .void
  | some x =>
    if scalar = false then ofNumpy x.kind
    else
      match x.cls with
      | .buffer => ofNumpy x.kind
      | .bool => .ok .bool
      | .float => .ok .float64
      | .int => .ok .int64
      | .str => .ok .string
      | .variable => .ok .variable
      | .dataArray => .ok .dataArray
      | .dataset => .ok .dataset
      | .other => .ok .pyObject

/-- `ensure_conversion_possible` (`dtype.cpp` 224-233). -/
def conversionPossible (src dst : DT) : Bool :=
  decide (src = dst) || (src.isFundamental && dst.isFundamental) || decide (dst = .pyObject) || (src.isInt && decide (dst = .time))

/-- `common_dtype` (`dtype.cpp` 235-267) with `double` as default (`dtype.h` 49-51). -/
def commonDtype (values variances dtype : DT) : Except Err DT :=
  if dtype = .void then
    if values = .void then .ok (if variances = .void then .float64 else variances)
    else if variances ≠ .void ∧ values ≠ variances then .error .invalidArgument
    else .ok values
  else if values ≠ .void ∧ conversionPossible values dtype = false then .error .invalidArgument
  else if variances ≠ .void ∧ conversionPossible variances dtype = false then .error .invalidArgument
  else .ok dtype

/-- `variable::default_unit_for` (`lib/variable/variable.cpp` 18-36). -/
def defaultUnitFor : DT → MUnit n
  | .float64 | .float32 | .int64 | .int32 | .time | .structured _ => one
  | _ => none

/-- `has_datetime_dtype` (`dtype.cpp` 269-277 as called by `common_unit`): only objects with a dtype of their own. -/
def PyObj.hasDatetime (x : PyObj) : Bool :=
  match x.cls, x.kind with
  | .buffer, .datetime _ => true
  | _, _ => false

/-- `temporal_or_dimensionless` (`unit.cpp` 20-22). -/
def temporalOrOne (T : TimeTable n) (u : MUnit n) : Bool :=
  decide (u = one) || (match u with | none => false | some u => decide (u.exps = T.sec))

/-- `common_unit<time_point>` (`unit.cpp` 68-87): unit of the values and unit of the variable. -/
def commonUnit (T : TimeTable n) (values : Option PyObj) (unit : MUnit n) : Except Err (MUnit n × MUnit n) :=
  if temporalOrOne T unit = false then .error .unit
  else
    match values with
    | none => .ok (unit, unit)
    | some v =>
      if v.hasDatetime = false then .ok (unit, unit)
      else
        match parseDatetime T v.kind with
        | .error e => .error e
        | .ok u => if unit = one then .ok (u, u) else .ok (u, unit)

/-- `ElementTypeMap<time_point>::check_assignable` (`numpy.cpp` 10-24). -/
def checkAssignable (T : TimeTable n) (kind : NpKind) (unit : MUnit n) : Except Err Unit :=
  match kind with
  | .int _ => .ok ()
  | k =>
    match parseDatetime T k with
    | .error e => .error e
    | .ok u => if u ≠ unit then .error .invalidArgument else .ok ()

/-- The variable created: dtype, unit and, if the elements are datetimes, the numbers stored. -/
structure Created (n : Nat) where
  dtype : DT
  unit : MUnit n
  times : List Int

/-- `MakeVariable<time_point>` (`variable_init.cpp` 200-215). `elems` are the numbers in the array made of `values`
(`astype` to `int64`, `numpy.h` 51-57, `variable_init.cpp` 162-176). Datetimes have no variances (`makeVariable` throws). If the values are missing,
so are all elements, and `makeVariable` throws as well since there are variances. -/
def makeTimes (T : TimeTable n) (values variances : Option PyObj) (elems : List Int) (unit : MUnit n) : Except Err (Created n) :=
  match commonUnit T values unit with
  | .error e => .error e
  | .ok (valuesUnit, finalUnit) =>
    match values with
    | none => .error .variances
    | some v =>
      match checkAssignable T v.kind valuesUnit with
      | .error e => .error e
      | .ok _ =>
        if variances.isSome then .error .variances
        else
          match toUnit T.sec .timePoint elems valuesUnit finalUnit with
          | .error e => .error e
          | .ok (out, u) => .ok ⟨.time, u, out⟩

/-- The constructor of `Variable` in Python (`variable_init.cpp` 271-309) with `make_variable` (217-233) and, for structured elements,
`make_structured_variable` (246-264). Shapes, and elements other than datetimes, are left out, see `Verif.Model.Construct`. -/
def create (T : TimeTable n) (scalar : Bool) (values variances : Option PyObj) (elems : List Int) (unit : UnitArg n) (dtype : DtypeArg) :
    Except Err (Created n) :=
  if values.isNone ∧ variances.isNone then .error .invalidArgument
  else
    match castDtypeAndUnit T dtype unit with
    | .error e => .error e
    | .ok (.structured k, u) => if variances.isSome then .error .variances else .ok ⟨.structured k, u.getD one, []⟩
    | .ok (d, u) =>
      match dtypeOf scalar values with
      | .error e => .error e
      | .ok dv =>
        match dtypeOf scalar variances with
        | .error e => .error e
        | .ok dw =>
          match commonDtype dv dw d with
          | .error e => .error e
          | .ok .time => makeTimes T values variances elems (u.getD (defaultUnitFor .time))
          | .ok d => if variances.isSome ∧ d.canHaveVariances = false then .error .variances else .ok ⟨d, u.getD (defaultUnitFor d), []⟩

/-- The check in `astype` (`lib/python/bind_operators.h` 94-107): the dtype obtained, if it is accepted for a variable of unit `self`. -/
def astypeDtype (T : TimeTable n) (self : MUnit n) (dtype : DtypeArg) : Except Err DT :=
  match castDtypeAndUnit T dtype .default with
  | .error e => .error e
  | .ok (d, u) =>
    match u with
    | none => .ok d
    | some u => if u ≠ one ∧ u ≠ self then .error .unit else .ok d

/-- Assignment to `values` of a variable of datetimes (`lib/python/bind_data_access.h` 183-194, 288-296): the unit of an array has to be that of the
variable; the numbers are stored. The shape is checked as modelled in `Verif.Model.Numpy`. -/
def setTimes (T : TimeTable n) (unit : MUnit n) (values : PyObj) (elems : List Int) : Except Err (List Int) :=
  match checkAssignable T values.kind unit with
  | .error e => .error e
  | .ok _ => .ok elems

end Scipp.PyDType
