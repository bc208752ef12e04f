import Verif.Model.FloatBins
/-
Filters of N-D arrays (`src/scipp/scipy/ndimage/__init__.py`).

Numbers are rational, `rd` rounds the results of arithmetic (`roundDouble`, or nothing for exact arithmetic). Not modelled: `gaussian_filter` apart from finding its `sigma` (175-183), dtypes, the argument `mode` for points
beyond the ends.
-/
namespace Scipp.NdFilter
open Scipp Scipp.FloatBins

/-- A coord for a dim, of length one more than the data for bin edges, with unit (`ndimage/__init__.py` 57). -/
structure Axis where
  values : List ℚ
  unit : Nat

/-- A data array or variable `x` (`ndimage/__init__.py` 31-46): dims, values by position, also for positions beyond the ends, where SciPy makes up values; the coords with the names of dims; whether there are variances and masks. -/
structure Arr (V : Type) where
  dims : List Dim
  values : List Int → V
  coords : Dim → Option Axis
  variances : Bool
  masks : Bool

/-- A number or a scalar variable (`ndimage/__init__.py` 52-56). -/
inductive Index where
  | plain (v : ℚ)
  | scalar (v : ℚ) (unit : Nat)

/-- Arguments `sigma`, `size` and `origin`: the same for all dims, or a mapping (`ndimage/__init__.py` 83, 87). -/
inductive Arg where
  | all (i : Index)
  | each (m : List (Dim × Index))

/-- The argument `dtype` (`ndimage/__init__.py` 53, 85, 175): `int` or `float`. -/
inductive Kind where
  | int
  | float

/-- `dtype(pos)` (`ndimage/__init__.py` 66). -/
def Kind.cast : Kind → ℚ → ℚ
  | .int, v => truncate v
  | .float, v => v

/-- `_delta_to_positional` (`ndimage/__init__.py` 49-66). `lin` is `islinspace`, `conv` the factor for converting a unit. -/
def deltaToPositional {V : Type} (rd : ℚ → ℚ) (lin : List ℚ → Bool) (conv : Nat → Nat → Option ℚ) (k : Kind) (x : Arr V) (d : Dim) : Index → Except Err ℚ
  | .plain v => .ok v
  | .scalar v u =>
    match x.coords d with
    | none => .error .notFound
    | some c =>
      if lin c.values = false then .error .dataArray
      else
        match conv u c.unit with
        | none => .error .unit
        | some f => .ok (k.cast (rd (((c.values.length : ℚ) - 1) * rd (rd (v * f) / rd (c.values.getLastD 0 - c.values.headD 0)))))

/-- `_require_matching_dims` (`ndimage/__init__.py` 69-78). -/
def matching {V : Type} (x : Arr V) (m : List (Dim × Index)) : Bool := (m.map (·.1)).all (fun d => x.dims.contains d) && x.dims.all (fun d => (m.map (·.1)).contains d)

/-- `_positional_index` (`ndimage/__init__.py` 81-90). -/
def positionalIndex {V : Type} (rd : ℚ → ℚ) (lin : List ℚ → Bool) (conv : Nat → Nat → Option ℚ) (k : Kind) (x : Arr V) : Arg → Except Err (List ℚ)
  | .all i => x.dims.mapM (fun d => deltaToPositional rd lin conv k x d i)
  | .each m =>
    if matching x m = false then .error .notFound
    else x.dims.mapM (fun d => match (m.find? (fun e => e.1 == d)).map (·.2) with
      | none => .error .notFound
      | some i => deltaToPositional rd lin conv k x d i)

/-- A variable with booleans (`ndimage/__init__.py` 189): its dims and sizes, and `values` by position. -/
structure Footprint where
  sizes : List (Dim × Nat)
  values : List Nat → Bool

/-- `_make_footprint` (`ndimage/__init__.py` 186-205). The creation of a variable with a negative size fails. -/
def makeFootprint {V : Type} (rd : ℚ → ℚ) (lin : List ℚ → Bool) (conv : Nat → Nat → Option ℚ) (x : Arr V) : Option Arg → Option Footprint → Except Err Footprint
  | none, none => .error .invalidArgument
  | some size, none =>
    match positionalIndex rd lin conv .int x size with
    | .error e => .error e
    | .ok l => if l.any (fun v => decide (v < 0)) then .error .dimension else .ok ⟨x.dims.zip (l.map (fun v => (truncate v).toNat)), fun _ => true⟩
  | some _, some _ => .error .invalidArgument
  | none, some f =>
    if ((f.sizes.map (·.1)).all (fun d => x.dims.contains d) && x.dims.all (fun d => (f.sizes.map (·.1)).contains d)) = false then .error .dimension
    else .ok f

/-- The positions in an array with given shape (the loop of SciPy over the footprint, called in `ndimage/__init__.py` 235-241). -/
def positions : List Nat → List (List Nat)
  | [] => [[]]
  | n :: s => (List.range n).flatMap (fun i => (positions s).map (i :: ·))

/-- The position `o` of the footprint when it is placed at `i` (SciPy, called in `ndimage/__init__.py` 235-241): the middle of the footprint and the origin are subtracted. -/
def place : List Int → List Nat → List Nat → List Int → List Int
  | i :: is, o :: os, n :: ns, g :: gs => (i + o - (n / 2 : Nat) - g) :: place is os ns gs
  | _, _, _, _ => []

/-- `scipy_filter` (`ndimage/__init__.py` 235-241), a filter of SciPy: the function `F` of the values in the footprint, by position. -/
def scipyFilter {V : Type} (F : List V → V) (values : List Int → V) (shape : List Nat) (footprint : List Nat → Bool) (origin : List Int) (i : List Int) : V :=
  F (((positions shape).filter footprint).map (fun o => values (place i o shape origin)))

/-- The function made by `_make_footprint_filter`, with the checks of `_ndfilter` (`ndimage/__init__.py` 31-46, 223-242). -/
def footprintFilter {V : Type} (rd : ℚ → ℚ) (lin : List ℚ → Bool) (conv : Nat → Nat → Option ℚ) (F : List V → V) (x : Arr V) (size : Option Arg) (footprint : Option Footprint) (origin : Arg) :
    Except Err (Arr V) :=
  if x.variances then .error .variances
  else if x.masks then .error .invalidArgument
  else
    match makeFootprint rd lin conv x size footprint with
    | .error e => .error e
    | .ok f =>
      match positionalIndex rd lin conv .int x origin with
      | .error e => .error e
      | .ok g => .ok { x with values := scipyFilter F x.values (f.sizes.map (·.2)) f.values (g.map truncate) }

end Scipp.NdFilter
