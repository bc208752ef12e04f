import Verif.Model.Sizes
/-
Construction of variables: `makeVariable` (`lib/variable/include/scipp/variable/variable.h` 195-199) with its "keyword" arguments
(`variable_keyword_arg_constructor.h`), the constructor of `ElementArrayModel` (`element_array_variable.tcc`), and the constructor bound to Python
(`lib/python/variable_init.cpp`). Element types that are structured are left out, as are the conversions of dtype and unit.
-/
namespace Scipp.Construct

/-- An argument of `makeVariable` (`variable_keyword_arg_constructor.h` 33-57). The arrays of `Values{}` and `Variances{}` without arguments are not
set: `none`. -/
inductive Arg (U V : Type) where
  | unit (u : U)
  | dimensions (d : Dims)
  | dims (labels : List Dim)
  | shape (shape : List Int)
  | values (v : Option (List V))
  | variances (v : Option (List V))

/-- `detail::ArgParser` (`variable_keyword_arg_constructor.h` 69-77): the arguments of the constructor, and labels and shape seen so far. -/
structure Parser (U V : Type) where
  unit : Option U := none
  dimensions : Dims := []
  values : Option (List V) := none
  variances : Option (Option (List V)) := none
  dims : List Dim := []
  shape : List Int := []

/-- `ArgParser::parse(Dims)` (`variable_keyword_arg_constructor.h` 84-89). -/
def parseDims {U V : Type} (p : Parser U V) (arg : List Dim) : Except Err (Parser U V) :=
  if p.shape.isEmpty then .ok { p with dims := arg }
  else
    match Dims.ofLabels arg p.shape with
    | .error e => .error e
    | .ok d => .ok { p with dimensions := d }

/-- `ArgParser::parse(Shape)` (`variable_keyword_arg_constructor.h` 91-96). -/
def parseShape {U V : Type} (p : Parser U V) (arg : List Int) : Except Err (Parser U V) :=
  if p.dims.isEmpty then .ok { p with shape := arg }
  else
    match Dims.ofLabels p.dims arg with
    | .error e => .error e
    | .ok d => .ok { p with dimensions := d }

/-- `ArgParser::parse` (`variable_keyword_arg_constructor.h` 78-112), one overload per kind of argument. -/
def parse {U V : Type} (p : Parser U V) : Arg U V → Except Err (Parser U V)
  | .unit u => .ok { p with unit := some u }
  | .dimensions d => .ok { p with dimensions := d }
  | .dims l => parseDims p l
  | .shape s => parseShape p s
  | .values v => .ok { p with values := v }
  | .variances v => .ok { p with variances := some v }

/-- The fold expression over the arguments (`variable.h` 197), from the first to the last. -/
def parseAll {U V : Type} : List (Arg U V) → Parser U V → Except Err (Parser U V)
  | [], p => .ok p
  | a :: rest, p =>
    match parse p a with
    | .error e => .error e
    | .ok q => parseAll rest q

/-- What is fixed by the element type `T`: whether it can have variances, its default value and its default unit
(`core::canHaveVariances`, `default_init`, `default_unit_for` in `lib/variable/variable.cpp` 32-36). -/
structure Elem (U V : Type) where
  canHaveVariances : Bool
  zero : V
  unit : U

/-- A variable that owns its elements (`lib/variable/include/scipp/variable/variable.tcc` 88-95, `ElementArrayModel`): dims with row-major strides
and offset zero, unit, values and variances. -/
structure Made (U V : Type) where
  dims : Dims
  unit : U
  values : List V
  variances : Option (List V)

/-- An array that is not set is filled with the default value (`element_array_variable.tcc` 72-73 and 81-82). -/
def orDefault {V : Type} (size : Int) (zero : V) : Option (List V) → List V
  | some v => v
  | none => List.replicate size.toNat zero

/-- The constructor of `ElementArrayModel` (`element_array_variable.tcc` 66-83) as called by `make_model` and the constructor of `Variable`
(`variable.tcc` 56-63, 80-95). -/
def construct {U V : Type} (T : Elem U V) (p : Parser U V) : Except Err (Made U V) :=
  let size := Dims.volume p.dimensions
  let values := orDefault size T.zero p.values
  if p.variances.isSome ∧ T.canHaveVariances = false then .error .variances
  else if size ≠ values.length then .error .dimension
  else .ok ⟨p.dimensions, p.unit.getD T.unit, values, p.variances.map (orDefault size T.zero)⟩

/-- `makeVariable` (`variable.h` 195-199). -/
def makeVariable {U V : Type} (T : Elem U V) (args : List (Arg U V)) : Except Err (Made U V) :=
  match parseAll args {} with
  | .error e => .error e
  | .ok p => construct T p

/-- Reading variance number `k` through the view of the variable (`element_array_model.h` 107-110): a pointer into the array, not checked. -/
def readVariance {U V : Type} (x : Made U V) (k : Nat) : Except Err V :=
  match x.variances with
  | none => .error .variances
  | some v =>
    match v[k]? with
    | some y => .ok y
    | none => .error .ub

/-- Data given in Python, after `py::array` (`lib/python/variable_init.cpp` 133-142) or as it is if there are no labels: its shape, empty for
a scalar, and its elements in row-major order. -/
structure PyData (V : Type) where
  shape : List Int
  elems : List V

/-- `ensure_same_shape` (`variable_init.cpp` 51-81): the loop goes on as long as there are dims in both, and remembers a mismatch. Which of the two errors
is reported is not modelled, both are `std::invalid_argument`. -/
def sameShape : List Int → List Int → Bool
  | [], [] => true
  | a :: as, b :: bs => a == b && sameShape as bs
  | _, _ => false

/-- The loop of `detail::build_dimensions` (`variable_init.cpp` 98-103) and the check of the rest (104-108). Without the extra dims of structured
elements. -/
def zipLabels : List Dim → List Int → Dims → Except Err Dims
  | l :: ls, n :: ns, dims =>
    match Dims.addInner dims l n with
    | .error e => .error e
    | .ok dims => zipLabels ls ns dims
  | [], [], dims => .ok dims
  | _, _, _ => .error .invalidArgument

/-- `build_dimensions` (`variable_init.cpp` 113-131). -/
def buildDimensions {V : Type} (labels : List Dim) (values variances : Option (PyData V)) : Except Err Dims :=
  if labels.isEmpty then .ok []
  else
    match values, variances with
    | some v, some w => if sameShape v.shape w.shape then zipLabels labels v.shape [] else .error .invalidArgument
    | some v, none => zipLabels labels v.shape []
    | none, some w => zipLabels labels w.shape []
    | none, none => .error .invalidArgument

/-- `make_element_array` (`variable_init.cpp` 190-203): not set for `None`, a single element for a scalar (`extract_scalar` 151-163; an array that is
not a scalar is refused), otherwise a copy of the array, whose shape is checked (`copy_array_into_view`, `lib/python/numpy.h` 297-308, modelled in detail in
`Verif.Model.Numpy`). -/
def makeElementArray {V : Type} (dims : Dims) : Option (PyData V) → Except Err (Option (List V))
  | none => .ok none
  | some a =>
    if dims.isEmpty then
      match a.shape, a.elems with
      | [], [x] => .ok (some [x])
      | _, _ => .error .dimension
    else if Sizes.shape dims = a.shape then .ok (some a.elems)
    else .error .dimension

/-- The order in `MakeVariable` (`variable_init.cpp` 206-221): values and variances as arrays, then `makeVariable`. -/
def makeFrom {U V : Type} (T : Elem U V) (dims : Dims) (values variances : Option (PyData V)) : Except Err (Made U V) :=
  match makeElementArray dims values with
  | .error e => .error e
  | .ok v =>
    match variances with
    | none => makeVariable T [.dimensions dims, .values v]
    | some w =>
      match makeElementArray dims (some w) with
      | .error e => .error e
      | .ok w => makeVariable T [.dimensions dims, .values v, .variances w]

/-- The constructor bound to Python (`variable_init.cpp` 271-309 with `make_variable` 224-240). -/
def init {U V : Type} (T : Elem U V) (labels : List Dim) (values variances : Option (PyData V)) : Except Err (Made U V) :=
  if values.isNone ∧ variances.isNone then .error .invalidArgument
  else
    match buildDimensions labels values variances with
    | .error e => .error e
    | .ok dims => makeFrom T dims values variances

end Scipp.Construct
