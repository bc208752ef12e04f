import Verif.Model.Heap
/-!
Setting values and variances from Python: the properties `values`, `variances`, `value` and `variance` (`lib/python/bind_data_access.h`
30-44, 120-128, 184-193, 279-310, 358-432). An exception may leave a modified object behind, so every setter gives the object afterwards and the
outcome. Elements are of a type that is not structured. How memory that overlaps is handled is in `Verif.Model.Numpy`.
-/
namespace Scipp.PySet
open Scipp Sizes
variable {U V : Type}

/-- What `cast_to_array_like` makes of the object given (`lib/python/numpy.h` 44-79): shape and elements, in row-major order. The conversion
itself is one of pybind11 and NumPy, and may throw. -/
structure Given (V : Type) where
  shape : List Int
  elem : Int → V

/-- The loops of `copy_elements` (`lib/python/numpy.h` 81-290) for a destination that does not share memory with the source: element `k` of
the source goes to position `k` of the view. -/
def copyFrom (v : View) (x : Int → V) (b : Buffer V) (n : Nat) : Buffer V :=
  (List.range n).foldl (fun b (k : Nat) => b.set (v.addr (coordsOf v.dims k)) (x k)) b

/-- `copy_array_into_view` (`lib/python/numpy.h` 296-308). -/
def copyArray (v : View) (x : Given V) (b : Buffer V) : Except Err (Buffer V) :=
  if shape v.dims ≠ x.shape then .error .dimension
  else .ok (copyFrom v x.elem b (Dims.volume v.dims).toNat)

/-- The kind of access: values or variances (`get_values`, `get_variances`, `bind_data_access.h` 107-117). -/
inductive Part where
  | values | variances

/-- `get<Getter>(view)` for writing (`bind_data_access.h` 214-226): requires a writable variable (`variable.cpp` 163-166) and, for variances,
that there are some (`element_array_model.h` 102-109). -/
def buffer (o : Obj U V) (v : View) : Part → Except Err (Buffer V)
  | .values => match expectWritable v with
    | .error e => .error e
    | .ok () => .ok o.values
  | .variances => match expectWritable v with
    | .error e => .error e
    | .ok () => match o.variances with
      | none => .error .variances
      | some b => .ok b

/-- Put the buffer back. -/
def store (o : Obj U V) (b : Buffer V) : Part → Obj U V
  | .values => { o with values := b }
  | .variances => { o with variances := some b }

/-- `set` (`bind_data_access.h` 184-193) of the part of the object: access, conversion of the object given, check of the shape, copy. -/
def setPart (o : Obj U V) (v : View) (p : Part) (x : Except Err (Given V)) : Obj U V × Except Err Unit :=
  match buffer o v p with
  | .error e => (o, .error e)
  | .ok b => match x with
    | .error e => (o, .error e)
    | .ok x => match copyArray v x b with
      | .error e => (o, .error e)
      | .ok b' => (store o b' p, .ok ())

/-- `var.values = x` (`set_values`, `bind_data_access.h` 292-300). -/
def setValues (o : Obj U V) (v : View) (x : Except Err (Given V)) : Obj U V × Except Err Unit := setPart o v .values x

/-- `init_variances` (`bind_data_access.h` 37-43): the variances become a copy of the values of the same variable. `canVar` tells whether
the type of the elements can have variances (`element_array_variable.tcc` 129-131). -/
def initVariances [DecidableEq U] (canVar : Bool) (o : Obj U V) (v : View) : Except Err (Obj U V) :=
  match o.setVariances v (some (o, v)) with
  | .error e => .error e
  | .ok o' => if canVar then .ok o' else .error .variances

/-- `remove_variances` (`bind_data_access.h` 30-35). -/
def removeVariances [DecidableEq U] (o : Obj U V) (v : View) : Obj U V × Except Err Unit :=
  match o.setVariances v none with
  | .error e => (o, .error e)
  | .ok o' => (o', .ok ())

/-- The part common to `set_variances` and `set_variance`: add variances if there are none, then go on with `f`
(`bind_data_access.h` 304-308, 425-431). -/
def withVariances [DecidableEq U] (canVar : Bool) (o : Obj U V) (v : View) (f : Obj U V → Obj U V × Except Err Unit) :
    Obj U V × Except Err Unit :=
  if o.variances.isSome then f o
  else match initVariances canVar o v with
    | .error e => (o, .error e)
    | .ok o' => f o'

/-- `var.variances = x` (`set_variances`, `bind_data_access.h` 302-310); `none` is `None`. -/
def setVariances [DecidableEq U] (canVar : Bool) (o : Obj U V) (v : View) (x : Option (Except Err (Given V))) :
    Obj U V × Except Err Unit :=
  match x with
  | none => removeVariances o v
  | some x => withVariances canVar o v (fun o => setPart o v .variances x)

/-- `expect_scalar` (`bind_data_access.h` 120-128). -/
def expectScalar (v : View) : Except Err Unit := if v.dims.isEmpty then .ok () else .error .dimension

/-- `SetScalarVisitor` (`bind_data_access.h` 357-380): access first, then the conversion, which may throw, then the only element is
assigned. -/
def setScalarPart (o : Obj U V) (v : View) (p : Part) (x : Except Err V) : Obj U V × Except Err Unit :=
  match buffer o v p with
  | .error e => (o, .error e)
  | .ok b => match x with
    | .error e => (o, .error e)
    | .ok x => (store o (b.set (v.addr (fun _ => 0)) x) p, .ok ())

/-- `var.value = x` (`set_value`, `bind_data_access.h` 409-418). -/
def setValue (o : Obj U V) (v : View) (x : Except Err V) : Obj U V × Except Err Unit :=
  match expectScalar v with
  | .error e => (o, .error e)
  | .ok () => setScalarPart o v .values x

/-- `var.variance = x` (`set_variance`, `bind_data_access.h` 421-432). -/
def setVariance [DecidableEq U] (canVar : Bool) (o : Obj U V) (v : View) (x : Option (Except Err V)) : Obj U V × Except Err Unit :=
  match expectScalar v with
  | .error e => (o, .error e)
  | .ok () => match x with
    | none => removeVariances o v
    | some x => withVariances canVar o v (fun o => setScalarPart o v .variances x)

/-- `var.variances` (`bind_data_access.h` 286-290): `None` if there are none, otherwise element at coordinates. -/
def getVariances (o : Obj U V) (v : View) : Option ((Dim → Int) → V) := o.variances.map (fun b c => b.at_ (v.addr c))

/-- `var.values` (`bind_data_access.h` 282-284). -/
def getValues (o : Obj U V) (v : View) : (Dim → Int) → V := fun c => o.values.at_ (v.addr c)

end Scipp.PySet
