import Verif.Model.Sizes
import Mathlib.Algebra.Field.Rat
import Mathlib.Algebra.Order.Ring.Rat
import Mathlib.Algebra.Order.Group.Unbundled.Abs
/-
Filters for signals: `butter` and `sosfiltfilt` (`src/scipp/scipy/signal/__init__.py`), with the wrapper for functions of one dim (`src/scipp/compat/wrapping.py`).

Numbers are rational and arithmetic is exact, so the tolerance in `islinspace` is zero. SciPy's design and application of a filter are any functions. Data are one-dimensional.
-/
namespace Scipp.Signal
open Scipp

/-- A unit: the exponent of its base unit, and a scale (`src/scipp/scipy/signal/__init__.py` 78-83). -/
structure FUnit where
  kind : Int
  scale : ℚ
deriving DecidableEq

/-- `one / unit` (`src/scipp/scipy/signal/__init__.py` 78). -/
def FUnit.inv (u : FUnit) : FUnit := ⟨-u.kind, 1 / u.scale⟩

/-- A coord; `int` if its dtype is an integer (`src/scipp/scipy/signal/__init__.py` 48-51). -/
structure Coord where
  values : List ℚ
  int : Bool
  unit : FUnit
deriving DecidableEq

/-- A scalar variable (`src/scipp/scipy/signal/__init__.py` 76-83). -/
structure Scalar where
  value : ℚ
  int : Bool
  unit : FUnit
deriving DecidableEq

/-- Do all neighbours have this distance, ignoring the sign (`lib/common/include/scipp/common/numeric.h` 27-31, 34-37)? -/
def gaps (delta : ℚ) : List ℚ → Bool
  | a :: b :: l => decide (|b - a| = delta) && gaps delta (b :: l)
  | _ => true

/-- `islinspace` (`lib/common/include/scipp/common/numeric.h` 16-39). -/
def islinspace (c : Coord) : Bool :=
  match c.values with
  | a :: b :: l =>
    let last := (b :: l).getLast (List.cons_ne_nil b l)
    if last ≤ a then false
    else if c.int then gaps (b - a) c.values
    else gaps ((last - a) / ((l.length + 1 : Nat) : ℚ)) c.values
  | _ => false

/-- `_frequency` (`src/scipp/scipy/signal/__init__.py` 48-51). -/
def frequency (c : Coord) : Except Err ℚ :=
  if islinspace c then .ok (((c.values.length - 1 : Nat) : ℚ) / (c.values.getLast?.getD 0 - c.values.head?.getD 0))
  else .error .invalidArgument

/-- `to_unit` of a scalar: integers are rounded (`lib/variable/to_unit.cpp` 30-51). -/
def toUnit (rnd : ℚ → Int) (w : Scalar) (u : FUnit) : Except Err ℚ :=
  if u = w.unit then .ok w.value
  else if w.unit.kind ≠ u.kind then .error .unit
  else if w.int then .ok (rnd (w.value * w.unit.scale / u.scale))
  else .ok (w.value * w.unit.scale / u.scale)

/-- `SOS` (`src/scipp/scipy/signal/__init__.py` 29-37). -/
structure SOS (F : Type) where
  coord : Coord
  sos : F
deriving DecidableEq

/-- `butter` (`src/scipp/scipy/signal/__init__.py` 54-89); `design` is that of SciPy, with critical frequency and sampling frequency. -/
def butter {F : Type} (rnd : ℚ → Int) (design : ℚ → ℚ → Except Err F) (c : Coord) (w : Scalar) : Except Err (SOS F) :=
  match frequency c with
  | .error e => .error e
  | .ok fs =>
    match toUnit rnd w c.unit.inv with
    | .error e => .error e
    | .ok wn =>
      match design wn fs with
      | .error e => .error e
      | .ok f => .ok ⟨c, f⟩

/-- A data array of one dim: data, size, unit, the coord of the dim, whether there are variances, masks by whether they depend on the dim (`src/scipp/compat/wrapping.py` 70-92). -/
structure Arr (D : Type) where
  data : D
  size : Nat
  unit : FUnit
  coord : Option Coord
  variances : Bool
  masks : List (Nat × Bool)
deriving DecidableEq

/-- `sosfiltfilt` of a data array in `wrap1d(keep_coords=True)` (`src/scipp/scipy/signal/__init__.py` 92-108; `src/scipp/compat/wrapping.py` 18-27, 70-92, 99-124). -/
def filterArr {F D : Type} (apply : F → D → D) (da : Arr D) (s : SOS F) : Except Err (Arr D) :=
  if da.variances then .error .variances
  else
    match da.coord with
    | none => .error .notFound
    | some c =>
      if da.size ≠ c.values.length then .error .binEdge
      else if c ≠ s.coord then .error .invalidArgument
      else if da.masks.any (·.2) then .error .dimension
      else .ok { da with data := apply s.sos da.data }

/-- `sosfiltfilt` of a variable: the coord is that of the filter, if it fits (`src/scipp/scipy/signal/__init__.py` 146-151). Bin edges fit also. -/
def filterVar {F D : Type} (apply : F → D → D) (data : D) (size : Nat) (unit : FUnit) (variances : Bool) (s : SOS F) : Except Err (Arr D) :=
  if s.coord.values.length = size ∨ s.coord.values.length = size + 1 then filterArr apply ⟨data, size, unit, some s.coord, variances, []⟩ s
  else .error .dimension

end Scipp.Signal
