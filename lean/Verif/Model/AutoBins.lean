import Verif.Model.FloatBins

/-!
# Automatically determined bin edges and groups

`hist(x=5)`, `bin(x=step)`, and `group('label')` determine the edges or the groups from the data
(`src/scipp/core/binning.py` 290-365, 972-1000).
-/

namespace Scipp.AutoBins
open Numeric

/-- Smallest and largest number of an element type: the initial values of the reductions `max` and `min` (`FillValue::Lowest`,
`FillValue::Max`, `lib/variable/reduction.cpp` 81, 97), i.e., the results for no elements. -/
structure Limits (V : Type) where
  lowest : V
  highest : V

variable {V : Type} [LinearOrder V]

/-- `c.min()`/`c.nanmin()` (`binning.py` 300, 329) of the elements. NaN is not modelled. -/
def minOf (L : Limits V) (l : List V) : V := l.foldl min L.highest

/-- `c.max()`/`c.nanmax()` (`binning.py` 301, 313) of the elements. NaN is not modelled. -/
def maxOf (L : Limits V) (l : List V) : V := l.foldl max L.lowest

/-- The object for which edges are determined (`binning.py` 290-307), reduced to what concerns the named coordinate: its elements, in a
data array or dataset together with whether they are bin edges (`is_edges`), and the elements of the coordinate of the events, if the data
is binned. The items of a dataset share the coordinate outside of the bins. -/
inductive Source (V : Type) where
  | var (values : List V)
  | array (coord : Option (List V × Bool)) (events : Option (List V))
  | dataset (coord : Option (List V × Bool)) (items : List (Option (List V)))

/-- `_get_coord` of a data array (`binning.py` 303-307): the coordinate outside of the bins comes first. -/
def coordOfArray (coord : Option (List V × Bool)) (events : Option (List V)) : Except Err (List V) :=
  match coord, events with
  | some c, _ => .ok c.1
  | none, some e => .ok e
  | none, none => .error .notFound

/-- One step of the loop over the items of a dataset (`binning.py` 298-301), for the minimum and maximum found so far. -/
def rangeStep (L : Limits V) (acc : Option (V × V)) (c : List V) : V × V :=
  match acc with
  | none => (minOf L c, maxOf L c)
  | some (cmin, _) => (min cmin (minOf L c), max (min cmin (minOf L c)) (maxOf L c))

/-- The loop over the items of a dataset (`binning.py` 298-301). -/
def rangeLoop (L : Limits V) (coord : Option (List V × Bool)) : List (Option (List V)) → Option (V × V) → Except Err (Option (V × V))
  | [], acc => .ok acc
  | e :: es, acc => do
    let c ← coordOfArray coord e
    rangeLoop L coord es (some (rangeStep L acc c))

/-- `_get_coord` (`binning.py` 290-307). -/
def getCoord (L : Limits V) : Source V → Except Err (List V)
  | .var values => .ok values
  | .array coord events => coordOfArray coord events
  | .dataset coord items => do
    match ← rangeLoop L coord items none with
    | none => .error .invalidArgument
    | some (cmin, cmax) => .ok [cmin, cmax]

/-- `name in x.coords and x.coords.is_edges(name, name)` (`binning.py` 330-334). -/
def hasEdges : Source V → Bool
  | .var _ => false
  | .array coord _ => (coord.map (·.2)).getD false
  | .dataset coord _ => (coord.map (·.2)).getD false

/-- `start` and `stop` (`binning.py` 328-342); `upper` is `_upper_bound` of a single element (`binning.py` 310-320). -/
def bounds (L : Limits V) (upper : V → V) (x : Source V) : Except Err (V × V) := do
  let coord ← getCoord L x
  let start := minOf L coord
  let stop := if hasEdges x then maxOf L coord else upper (maxOf L coord)
  if stop < start then .error .invalidArgument else .ok (start, stop)

/-- `_upper_bound` for integers and datetimes (`binning.py` 314-315). Overflow is not modelled. -/
def upperInt (x : Int) : Int := x + 1

/-- The next larger `double` (`np.nextafter`, `binning.py` 317-319; NumPy is not part of the repository). The range of the exponent is not
limited here, except that the number following zero is that of a `double`. -/
def nextUp (x : ℚ) : ℚ :=
  if x = 0 then 2 ^ (-1074 : Int)
  else
    let e := Int.log 2 |x|
    if x < 0 ∧ |x| = 2 ^ e then x + 2 ^ (e - 53) else x + 2 ^ (e - 52)

/-- `np.nextafter` (`binning.py` 317-319): the next number in direction of `y`. -/
def nextAfter (x y : ℚ) : ℚ := if y = x then y else if x < y then nextUp x else -nextUp (-x)

/-- `_upper_bound` for numbers of type `double` (`binning.py` 316-319). -/
def upperFloat (x : ℚ) : ℚ := nextAfter x (roundDouble (x + 1))

/-- `np.linspace` of two numbers of type `double` (called in `src/scipp/core/variable.py` 630-636; NumPy is not part of the repository): the
last element is set to `stop`. -/
def npLinspace (start stop : ℚ) (num : Nat) : List ℚ :=
  let delta := roundDouble (stop - start)
  let step := roundDouble (delta / roundDouble ((num - 1 : Nat) : ℚ))
  let elem (i : Nat) : ℚ :=
    if step = 0 then roundDouble (roundDouble (roundDouble (i / roundDouble ((num - 1 : Nat) : ℚ)) * delta) + start)
    else roundDouble (roundDouble (i * step) + start)
  (List.range num).map (fun i : Nat => if i = 0 then start else if i + 1 = num then stop else elem i)

/-- Edges for a given number of bins, for a coordinate of type `double` (`binning.py` 349-351). -/
def countEdgesFloat (L : Limits ℚ) (x : Source ℚ) (n : Nat) : Except Err (List ℚ) := do
  let (start, stop) ← bounds L upperFloat x
  .ok (npLinspace start stop (n + 1))

/-- Edges for a given number of bins, for an integer coordinate (`binning.py` 349-351): `linspace` works with numbers of type `double`, the
conversion back to an integer truncates. -/
def countEdgesInt (L : Limits Int) (x : Source Int) (n : Nat) : Except Err (List Int) := do
  let (start, stop) ← bounds L upperInt x
  .ok ((npLinspace (roundDouble start) (roundDouble stop) (n + 1)).map FloatBins.truncate)

/-- Edges for a given number of bins, for a coordinate of datetimes, given as the number of units since the epoch (`binning.py` 344-348):
`linspace` works with numbers of type `double`, which are then rounded (`round_`, to even if in the middle). -/
def countEdgesTime (L : Limits Int) (x : Source Int) (n : Nat) : Except Err (List Int) := do
  let (start, stop) ← bounds L upperInt x
  .ok ((npLinspace (roundDouble start) (roundDouble stop) (n + 1)).map roundHalfEven)

/-- `np.arange` for integers (called in `variable.py` 874-879; NumPy is not part of the repository). -/
def npArangeInt (start stop step : Int) : List Int :=
  (List.range (⌈((stop - start : Int) : ℚ) / step⌉).toNat).map (fun i : Nat => start + (i : Int) * step)

/-- `np.arange` for numbers of type `double`: the number of elements is computed with rounding, as are the elements. -/
def npArangeFloat (start stop step : ℚ) : List ℚ :=
  let delta := roundDouble (roundDouble (start + step) - start)
  (List.range (⌈roundDouble (roundDouble (stop - start) / step)⌉).toNat).map
    (fun i : Nat => if i = 0 then start else roundDouble (start + roundDouble ((i : ℚ) * delta)))

/-- Edges for a given step, for an integer coordinate (`binning.py` 352-355). The step is given in the unit and type of the coordinate. -/
def stepEdgesInt (L : Limits Int) (x : Source Int) (step : Int) : Except Err (List Int) := do
  let (start, stop) ← bounds L upperInt x
  if step = 0 then .error .invalidArgument else .ok (npArangeInt start (stop + step) step)

/-- Edges for a given step, for a coordinate of type `double` (`binning.py` 352-355). -/
def stepEdgesFloat (L : Limits ℚ) (x : Source ℚ) (step : ℚ) : Except Err (List ℚ) := do
  let (start, stop) ← bounds L upperFloat x
  if step = 0 then .error .invalidArgument else .ok (npArangeFloat start (roundDouble (stop + step)) step)

/-- Insertion into a sorted list without repetitions. Part of `npUnique`. -/
def insertUnique (x : Int) : List Int → List Int
  | [] => [x]
  | y :: ys => if x < y then x :: y :: ys else if x = y then y :: ys else y :: insertUnique x ys

/-- `np.unique` (`binning.py` 996-998; NumPy is not part of the repository): the sorted elements without repetitions. -/
def npUnique (l : List Int) : List Int := l.foldr insertUnique []

/-- Integer arithmetic with `bits` bits: the result is wrapped around. -/
def wrap (bits : Nat) (x : Int) : Int := (x + 2 ^ (bits - 1)) % 2 ^ bits - 2 ^ (bits - 1)

/-- The loop of `_make_groups` (`binning.py` 993-996). The rows are the elements of `coord.values`, for a coordinate with several dimensions
these are arrays. -/
def groupLoop (bits : Nat) (rows : List (List Int)) (lo hi : Int) : List Nat → List Int → List Int
  | [], unique => unique
  | pivot :: pivots, unique =>
    if (unique.length : Int) = wrap bits (wrap bits (hi - lo) + 1) then unique
    else groupLoop bits rows lo hi pivots (npUnique (rows.take (rows.length / pivot)).flatten)

/-- `_make_groups` for an integer coordinate with elements of `bits` bits (`binning.py` 984-996). -/
def makeGroups (bits : Nat) (L : Limits Int) (rows : List (List Int)) : List Int :=
  if rows.flatten = [] then []
  else groupLoop bits rows (minOf L rows.flatten) (maxOf L rows.flatten) [1000, 100, 10, 1] []

end Scipp.AutoBins
