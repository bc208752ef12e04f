import Verif.Model.Histogram
import Verif.Model.Numeric
/-
Model of the arithmetic on `double` used when values are assigned to bins given by evenly spaced edges: `islinspace`
(`lib/common/include/scipp/common/numeric.h`), `linear_edge_params` and `get_bin` (`lib/core/include/scipp/core/histogram.h`), and of
`linspace` (`lib/variable/util.cpp`).

Every operation of the code on `double` is one operation on rational numbers followed by `roundDouble`, the rounding to 53 significant
bits to nearest with ties to even. Simplifications: the range of exponents is unlimited, i.e., neither overflow to infinity nor underflow is
modelled; NaN occurs only as coordinate of an event (`none` in `getBin`). Edges and values of type `float` are not modelled.
-/
namespace Scipp.FloatBins
open Scipp Numeric

/-- `islinspace` for `double` (`numeric.h` 16-32), each operation rounded. The size (an integer) is converted to `double`.
`std::abs` is exact. -/
def islinspace (range : List ℚ) : Bool :=
  match range, range.getLast? with
  | front :: _ :: _, some back =>
    if back ≤ front then false
    else
      let delta := roundDouble (roundDouble (back - front) / roundDouble ((range.length : ℚ) - 1))
      let epsilon := roundDouble (roundDouble (1 / 2 ^ 52 * roundDouble (|front| + |back|)) * 4)
      !adjacentFind (fun a b => decide (epsilon < |roundDouble (|roundDouble (b - a)| - delta)|)) range
  | _, _ => false

/-- `scale` of `linear_edge_params` (`histogram.h` 15-21): `static_cast<double>(nbin) / (edges.back() - edges.front())`. For
edges that are integers or datetimes the difference is exact and converted to `double`, for edges of type `double` it is
rounded. The same function models both. -/
def scale (edges : List ℚ) : ℚ :=
  roundDouble (roundDouble ((edges.length : ℚ) - 1) / roundDouble (edges.getLastD 0 - edges.headD 0))

/-- Conversion of a floating-point number to an integer truncates. -/
def truncate (x : ℚ) : Int := x.num.tdiv x.den

/-- `Index bin = (x - offset) * scale` in `get_bin` (`histogram.h` 41). As for `scale`, the difference is that of two numbers of type
`double`, or of two integers. A mix of both, where an integer is converted before the subtraction, is covered if the conversion is exact. -/
def guess (edges : List ℚ) (x : ℚ) : Int := truncate (roundDouble (roundDouble (x - edges.headD 0) * scale edges))

/-- `guess` for integers, e.g., datetimes: the same computation, of numbers which are all integers. -/
def guessInt (edges : List Int) (x : Int) : Int := guess (edges.map (fun e : Int => (e : ℚ))) x

/-- Element `i` of `linspace` before the last one (`util.cpp` 38-42): `start + double(i) / (num - 1) * range`. -/
def linspaceElem (start stop : ℚ) (num i : Nat) : ℚ :=
  roundDouble (start + roundDouble (roundDouble (roundDouble i / roundDouble ((num : ℚ) - 1)) * roundDouble (stop - start)))

/-- `linspace` of two numbers of type `double` (`util.cpp` 19-44; other element types, variances, and different units are
rejected, lines 24-33, and not modelled; with several elements each pair is treated separately). Slicing an empty dimension at
position -1 is an error (line 42). -/
def linspace (start stop : ℚ) (num : Nat) : Except Err (List ℚ) :=
  if num = 0 then .error .slice
  else .ok ((List.range (num - 1)).map (linspaceElem start stop num) ++ [stop])

end Scipp.FloatBins
