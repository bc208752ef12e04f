import Verif.Model.MultiIndex
/-
Model of how `transform` and `transform_in_place` decide whether an operation sees and writes
variances: the flags of operations (`lib/core/include/scipp/core/transform_common.h` 70-128) and
their interpretation (`lib/variable/include/scipp/variable/transform.h` 64-74, 76-104, 146-246,
287-366, 408-431, 534-607).
-/
namespace Scipp.VarFlags

/-- Flags of an operation (`transform_common.h` 76-125), that is, the flag types among the base
classes of the operation: `no_out_variance`, the arguments with `expect_no_variance_arg<N>`, the
arguments with `expect_variance_arg<N>`, `expect_no_in_variance_if_out_cannot_have_variance`,
`expect_in_variance_if_out_variance`, `expect_all_or_none_have_variance`. The flag
`force_variance_broadcast` is in `Model/Variances.lean`. -/
structure Flags where
  noOut : Bool := false
  noArg : List Nat := []
  needArg : List Nat := []
  noInIfOutCannot : Bool := false
  inIfOut : Bool := false
  allOrNone : Bool := false
  deriving DecidableEq, Repr

/-- What an element operation receives and returns: a value, or a `ValueAndVariance`
(`lib/core/include/scipp/core/value_and_variance.h` 21-32). -/
inductive Elem (F : Type) where
  | plain (value : F)
  | pair (value variance : F)
  deriving DecidableEq, Repr

/-- An operand or an output: its values and, if it has variances, its variances, per position of
the iteration. Simplified: a function of the position; which memory a position refers to is the
subject of `Model/Transform.lean`. -/
structure Data (F : Type) where
  values : Nat → F
  variances : Option (Nat → F)

/-- `has_variances` (`lib/variable/include/scipp/variable/visit.h` 26). -/
def Data.has {F : Type} (d : Data F) : Bool := d.variances.isSome

/-- An argument after it has been processed by `do_transform`: a view of the values, or
`ValuesAndVariances` (`lib/core/include/scipp/core/values_and_variances.h` 20-60). -/
inductive Processed (F : Type) where
  | vals (v : Nat → F)
  | both (v s : Nat → F)

variable {F : Type}

/-- `is_ValuesAndVariances_v` (`transform.h` 291, 311, 550-552). -/
def Processed.isBoth : Processed F → Bool
  | .vals _ => false
  | .both _ _ => true

/-- `value_maybe_variance` (`transform.h` 64-74). -/
def Processed.at_ : Processed F → Nat → Elem F
  | .vals v, i => .plain (v i)
  | .both v s, i => .pair (v i) (s i)

/-- The arguments of the element operation at a position (`call_impl`, `transform.h` 146-150). -/
def argsAt (args : List (Processed F)) (i : Nat) : List (Elem F) := args.map (fun a => a.at_ i)

/-- `check_all_or_none_variances` (`transform.h` 287-292). -/
def allOrNoneViolated (f : Flags) (args : List (Processed F)) : Bool :=
  f.allOrNone && !(args.all Processed.isBoth) && args.any Processed.isBoth

/-- Assignment of the result of an operation to an element with variances: assigning a value sets
the variance to zero (`value_and_variance.h` 33-44). -/
def assignBoth [Zero F] : Elem F → F × F
  | .plain v => (v, 0)
  | .pair v s => (v, s)

/-- Assignment of the result to an element without variances. A `ValueAndVariance` cannot be
assigned to a value: such an operation does not compile, which is modelled as an error. -/
def assignPlain : Elem F → Except Err F
  | .plain v => .ok v
  | .pair _ _ => .error .logic

/-- Writing the first `n` values of an output without variances (`call`, `transform.h` 151-164, in
the loops 191-221). -/
def writePlain (g : Nat → Elem F) : Nat → (Nat → F) → Except Err (Nat → F)
  | 0, v => .ok v
  | n + 1, v => do
    let v ← writePlain g n v
    let x ← assignPlain (g n)
    .ok (fun i => if i = n then x else v i)

/-- Writing the first `n` values and variances of an output with variances (`transform.h`
151-164). -/
def writeBoth [Zero F] (g : Nat → Elem F) : Nat → (Nat → F) × (Nat → F) → (Nat → F) × (Nat → F)
  | 0, o => o
  | n + 1, o =>
    let o := writeBoth g n o
    let x := assignBoth (g n)
    (fun i => if i = n then x.1 else o.1 i, fun i => if i = n then x.2 else o.2 i)

/-- The recursion of `do_transform` over the arguments (`transform.h` 321-366), starting with
argument `k`: arguments with variances must be allowed to, arguments without must not be required
to have variances. `outCan` is `canHaveVariances<Out>`. -/
def collect (f : Flags) (outCan : Bool) : Nat → List (Data F) → Except Err (List (Processed F))
  | _, [] => .ok []
  | k, d :: ds =>
    match d.variances with
    | some s =>
      if f.noArg.contains k then .error .variances
      else if f.noInIfOutCannot && !outCan then .error .variances
      else (collect f outCan (k + 1) ds).map (fun ps => .both d.values s :: ps)
    | none =>
      if f.needArg.contains k then .error .variances
      else (collect f outCan (k + 1) ds).map (fun ps => .vals d.values :: ps)

/-- The end of the recursion of `do_transform` (`transform.h` 294-319). `out.variances()` throws if
the output has no variances. -/
def finish [Zero F] (f : Flags) (op : List (Elem F) → Elem F) (outCan : Bool) (n : Nat) (out : Data F)
    (args : List (Processed F)) : Except Err (Data F) :=
  if allOrNoneViolated f args then .error .variances
  else if !f.noOut && outCan && args.any Processed.isBoth then
    match out.variances with
    | none => .error .variances
    | some s =>
      let r := writeBoth (fun i => op (argsAt args i)) n (out.values, s)
      .ok ⟨r.1, some r.2⟩
  else (writePlain (fun i => op (argsAt args i)) n out.values).map (fun v => ⟨v, out.variances⟩)

/-- `Transform::operator()` (`transform.h` 408-431) after the checks of the dimensions: whether the
output has variances is decided from the operands, then `do_transform` runs. `fresh` are the
elements of the new variable. -/
def transform [Zero F] (f : Flags) (op : List (Elem F) → Elem F) (outCan : Bool) (n : Nat) (fresh : Nat → F)
    (ins : List (Data F)) : Except Err (Data F) := do
  let variances := !f.noOut && outCan && ins.any Data.has
  let out : Data F := ⟨fresh, if variances then some fresh else none⟩
  let args ← collect f outCan 0 ins
  finish f op outCan n out args

/-- The recursion of `do_transform_in_place` over the arguments (`transform.h` 570-607); argument 0
is the output. -/
def collectInPlace (f : Flags) : Nat → List (Data F) → Except Err (List (Processed F))
  | _, [] => .ok []
  | k, d :: ds =>
    match d.variances with
    | some s =>
      if f.noArg.contains k then .error .variances
      else (collectInPlace f (k + 1) ds).map (fun ps => .both d.values s :: ps)
    | none =>
      if f.needArg.contains k then .error .variances
      else (collectInPlace f (k + 1) ds).map (fun ps => .vals d.values :: ps)

/-- The condition under which the elements are processed (`transform.h` 546-557). -/
def inPlaceAllowed (f : Flags) (argVar argsVar : Bool) : Bool :=
  (if f.inIfOut then argVar == argsVar else argVar || !argsVar) || f.noArg.contains 0

/-- The loop over the elements of an in-place operation (`call_in_place`, `transform.h` 175-190, in
the loops 191-221): `op` receives the present element of the output and the elements of the other
arguments and gives the new element of the output. -/
def runInPlace [Zero F] (op : Elem F → List (Elem F) → Elem F) (n : Nat) (out : Processed F)
    (args : List (Processed F)) : Except Err (Data F) :=
  match out with
  | .both v s =>
    let r := writeBoth (fun i => op (.pair (v i) (s i)) (argsAt args i)) n (v, s)
    .ok ⟨r.1, some r.2⟩
  | .vals v => (writePlain (fun i => op (.plain (v i)) (argsAt args i)) n v).map (fun v => ⟨v, none⟩)

/-- The end of the recursion of `do_transform_in_place` (`transform.h` 534-567). -/
def finishInPlace [Zero F] (f : Flags) (op : Elem F → List (Elem F) → Elem F) (n : Nat) :
    List (Processed F) → Except Err (Data F)
  | [] => .error .logic
  | out :: args =>
    if allOrNoneViolated f (out :: args) then .error .variances
    else if inPlaceAllowed f out.isBoth (args.any Processed.isBoth) then runInPlace op n out args
    else .error .variances

/-- `TransformInPlace::operator()` (`transform.h` 616-640) after the check for overlap. -/
def transformInPlace [Zero F] (f : Flags) (op : Elem F → List (Elem F) → Elem F) (n : Nat) (out : Data F)
    (ins : List (Data F)) : Except Err (Data F) := do
  let args ← collectInPlace f 0 (out :: ins)
  finishInPlace f op n args

/-- `assign_unary` (`transform_common.h` 62-68): the operation used for the variants with an `out`
argument. It has the flags of the original operation, whose arguments are shifted by one. -/
def assignUnary (op : List (Elem F) → Elem F) : Elem F → List (Elem F) → Elem F := fun _ ins => op ins

/-- Variants of functions with an `out` argument (`lib/templates/variable_unary.cpp.in` 30-38,
`variable_binary.cpp.in` 30-38). -/
def transformOut [Zero F] (f : Flags) (op : List (Elem F) → Elem F) (n : Nat) (out : Data F) (ins : List (Data F)) :
    Except Err (Data F) :=
  transformInPlace f (assignUnary op) n out ins

/-! ### Operations and their flags -/

/-- An operation: number of arguments (including the output for in-place operations) and flags. -/
structure OpInfo where
  arity : Nat
  flags : Flags

/-- `add`, `subtract` (`lib/core/include/scipp/core/element/arithmetic.h` 152-155); `negative` (208-212). -/
def add : OpInfo := ⟨2, {}⟩
/-- `multiply`, `apply_spatial_transformation`, `divide` (`arithmetic.h` 156-181). -/
def multiply : OpInfo := ⟨2, { noInIfOutCannot := true }⟩
/-- `floor_divide`, `mod` (`arithmetic.h` 182-194). -/
def floorDivide : OpInfo := ⟨2, { noArg := [0, 1] }⟩
/-- `abs`, `exp`, `log`, `log10`, `reciprocal`, `sqrt` (`lib/core/include/scipp/core/element/math.h`
51-56, 90-94, 105-130). -/
def mathFn : OpInfo := ⟨1, {}⟩
/-- `floor`, `ceil`, `rint` (`math.h` 131-153). -/
def rounding : OpInfo := ⟨1, { noArg := [0, 1] }⟩
/-- `erf`, `erfc` (`math.h` 155-175). -/
def erf : OpInfo := ⟨1, { noArg := [0] }⟩
/-- `pow` (`math.h` 61-72). -/
def pow : OpInfo := ⟨2, { noArg := [1] }⟩
/-- `midpoint` (`math.h` 178-190). -/
def midpoint : OpInfo := ⟨2, { noArg := [0, 1] }⟩
/-- `sin`, `cos`, `tan`, `asin`, `acos`, `atan` (`lib/core/include/scipp/core/element/trigonometry.h`
14-48). -/
def trig : OpInfo := ⟨1, { noArg := [0, 1, 2] }⟩
/-- `atan2` (`trigonometry.h` 49-55). -/
def atan2 : OpInfo := ⟨2, { noArg := [0, 1, 2] }⟩
/-- `sinh`, `cosh`, … (`lib/core/include/scipp/core/element/hyperbolic.h` 12-45). -/
def hyperbolic : OpInfo := ⟨1, { noArg := [0, 1] }⟩
/-- `to_unit` (`lib/core/include/scipp/core/element/to_unit.h` 41-60). -/
def toUnit : OpInfo := ⟨2, { noArg := [1] }⟩
/-- Comparisons (`lib/core/include/scipp/core/element/comparison.h` 75-115). -/
def comparison : OpInfo := ⟨2, { noOut := true }⟩
/-- `values` (`lib/core/include/scipp/core/element/util.h` 35-43). -/
def valuesOp : OpInfo := ⟨1, { noOut := true }⟩
/-- `variances`, `stddevs` (`util.h` 44-69). -/
def variancesOp : OpInfo := ⟨1, { noOut := true, needArg := [0] }⟩
/-- `where` (`util.h` 135-152). -/
def whereOp : OpInfo := ⟨3, {}⟩
/-- `nan_to_num`, `positive_inf_to_num`, `negative_inf_to_num`
(`lib/core/include/scipp/core/element/special_values.h` 74-95, 102-125). -/
def replaceSpecial : OpInfo := ⟨2, { allOrNone := true }⟩
/-- `astype` to a type with variances (`lib/variable/astype.cpp` 41-43): no flag. -/
def astypeFloat : OpInfo := ⟨1, {}⟩
/-- `astype` to a type without variances (`astype.cpp` 41-43). -/
def astypeInt : OpInfo := ⟨1, { noArg := [0] }⟩

/-- `isnan`, `isinf`, `isfinite`, `isposinf`, `isneginf` (`special_values.h` 24-72), `isclose`
(`comparison.h` 35-54): no flag, the output is `bool`. -/
def isnanOp : OpInfo := ⟨1, {}⟩
/-- `map` and the functions derived from it (`lib/core/include/scipp/core/element/event_operations.h`
33-110). -/
def mapOp : OpInfo := ⟨4, { noArg := [0, 1] }⟩

/-- `+=`, `-=`, `*=`, `/=` (`arithmetic.h` 29-43, 68-71); `fill` (`util.h` 124-126). -/
def addEquals : OpInfo := ⟨2, {}⟩
/-- `floor_divide_equals`, `mod_equals` (`arithmetic.h` 72-75, 202-207). -/
def floorDivideEquals : OpInfo := ⟨2, { noArg := [0, 1] }⟩
/-- `pow_in_place` (`math.h` 73-88). -/
def powInPlace : OpInfo := ⟨3, { noArg := [2], inIfOut := true }⟩
/-- `max_equals`, `min_equals`, `nanmax_equals`, `nanmin_equals` (`comparison.h` 117-165); `copy`
(`lib/variable/include/scipp/variable/element_array_model.h` 143-150). -/
def maxEquals : OpInfo := ⟨2, { inIfOut := true }⟩
/-- `issorted_nondescending`, `issorted_nonascending` (`util.h` 71-91). -/
def issorted : OpInfo := ⟨3, { noArg := [1] }⟩
/-- `nan_to_num_out_arg` and its relatives (`special_values.h` 82-89). -/
def replaceSpecialOut : OpInfo := ⟨3, { allOrNone := true }⟩
/-- The operations of `cumsum` along a dimension of dense data
(`lib/core/include/scipp/core/element/cumulative.h` 13-30). -/
def cumsum : OpInfo := ⟨2, { noArg := [0, 1] }⟩
/-- `map_and_mul` (`event_operations.h` 117-137). -/
def mapAndMul : OpInfo := ⟨4, { noArg := [1, 2, 3] }⟩

/-- The operations used with `transform`. -/
def operations : List OpInfo :=
  [add, multiply, floorDivide, mathFn, rounding, erf, pow, midpoint, trig, atan2, hyperbolic, toUnit, comparison,
   valuesOp, variancesOp, whereOp, replaceSpecial, astypeFloat, astypeInt, isnanOp, mapOp]

/-- The operations used with `transform_in_place`. -/
def inPlaceOperations : List OpInfo :=
  [addEquals, floorDivideEquals, powInPlace, maxEquals, issorted, replaceSpecialOut, cumsum, mapAndMul]

/-- The operations for which a variant with an `out` argument is generated from the template
(`lib/cmake/scipp-functions.cmake` 16-54, `OUT`). -/
def outOperations : List OpInfo := [mathFn, rounding, trig, atan2, hyperbolic]

/-! ### Inner loops specialised for strides -/

/-- `stride_special_cases` (`transform.h` 82-104), per number of operands. The arrays for in-place
operations with one and two operands have one more entry than initializers, which is zero. -/
def specialCases (inPlace : Bool) : (n : Nat) → List (List Int)
  | 1 => if inPlace then [[1], [0]] else []
  | 2 => if inPlace then [[1, 1], [0, 1], [1, 0], [0, 0]] else [[1, 1]]
  | 3 => if inPlace then [] else [[1, 1, 1], [1, 0, 1], [1, 1, 0]]
  | 4 => if inPlace then [] else [[1, 1, 1, 1], [1, 0, 1, 1], [1, 1, 0, 1], [1, 1, 1, 0]]
  | 5 => if inPlace then [] else [[1, 1, 1, 1, 1], [1, 1, 1, 1, 0], [1, 1, 1, 0, 0], [1, 1, 0, 0, 0]]
  | _ => []

/-- `increment` (`transform.h` 120-143): both versions add the strides to the indices. -/
def increment (indices strides : List Int) : List Int := List.zipWith (· + ·) indices strides

/-- `inner_loop` (`transform.h` 191-221): the indices at which the operation is called. The
versions with strides known at compile time and at run time differ in where the strides come
from. -/
def innerLoop (strides : List Int) : Nat → List Int → List (List Int)
  | 0, _ => []
  | n + 1, indices => indices :: innerLoop strides n (increment indices strides)

/-- `dispatch_inner_loop` (`transform.h` 223-246) with the special cases still to be tried. -/
def dispatch (cases_ : List (List Int)) (indices strides : List Int) (n : Nat) : List (List Int) :=
  match cases_ with
  | [] => innerLoop strides n indices
  | c :: cs => if strides = c then innerLoop c n indices else dispatch cs indices strides n

/-- `dispatch_inner_loop` as called in `transform_elements` and `transform_in_place_impl`. -/
def dispatchInnerLoop (inPlace : Bool) (indices strides : List Int) (n : Nat) : List (List Int) :=
  dispatch (specialCases inPlace indices.length) indices strides n

end Scipp.VarFlags
