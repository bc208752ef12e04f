import Verif.Model.FloatBins
/-
Interpolation along a dim (`src/scipp/scipy/interpolate/__init__.py`) with the wrapper for functions of one dim (`src/scipp/compat/wrapping.py`).

The interpolation of SciPy for one row of points is any function `S`, of the coords and values of the points and a new coord. Numbers are rational. Not modelled: datetimes, structured dtypes, failure of SciPy, e.g., if there
are too few points.
-/
namespace Scipp.Interp
open Scipp

/-- A coord, by labelled position: the name is that of a dim or any other (`wrapping.py` 113-116). `lens` are the lengths along its dims. -/
structure Coord where
  name : Dim
  dims : List Dim
  lens : List Nat
  values : (Dim → Nat) → ℚ
  unit : Nat

/-- A mask, by labelled position (`wrapping.py` 108-111). -/
structure Mask where
  name : Nat
  dims : List Dim
  masked : (Dim → Nat) → Bool

/-- A data array (`wrapping.py` 70): dims and sizes, values by labelled position, whether the dtype is an integer, unit, coords and masks. -/
structure Arr where
  dims : List Dim
  size : Dim → Nat
  values : (Dim → Nat) → ℚ
  integer : Bool
  variances : Bool
  unit : Nat
  coords : List Coord
  masks : List Mask

/-- The labelled position with another index along a dim: an element of a row along the dim, as SciPy gets it with `axis` (`wrapping.py` 83). -/
def along (c : Dim → Nat) (d : Dim) (i : Nat) : Dim → Nat := fun e => if e = d then i else c e

/-- `irreducible_mask` (`interpolate/__init__.py` 49; the union of the masks which depend on the dim) and the selection by the condition `~mask` (50): the indices of the points which are left. The condition must
have a single dim. -/
def unmasked (a : Arr) (d : Dim) : Except Err (List Nat) :=
  let ms := a.masks.filter (fun m => m.dims.contains d)
  if ms.all (fun m => m.dims == [d]) then .ok ((List.range (a.size d)).filter (fun i => !ms.any (fun m => m.masked (fun _ => i))))
  else .error .dimension

/-- `_drop_masked` (`interpolate/__init__.py` 48-51): the points which are left, with their coords. -/
def dropMasked (a : Arr) (d : Dim) : Except Err Arr :=
  match unmasked a d with
  | .error e => .error e
  | .ok keep => .ok { a with
      size := fun e => if e = d then keep.length else a.size e
      values := fun c => a.values (along c d (keep.getD (c d) 0))
      coords := a.coords.map (fun x => if x.dims.contains d then { x with values := fun c => x.values (along c d (keep.getD (c d) 0)) } else x) }

/-- New points (`interpolate/__init__.py` 173): the dims, the number of points and their values along the dim, the unit. -/
structure Points where
  dims : List Dim
  n : Nat
  values : Nat → ℚ
  unit : Nat

/-- `_midpoints` (`interpolate/__init__.py` 42-45), or the points themselves (211). -/
def newPoints (p : Points) : Bool → Nat × (Nat → ℚ)
  | false => (p.n, p.values)
  | true => (p.n - 1, fun i => p.values i + 1 / 2 * (p.values (i + 1) - p.values i))

/-- The assignment to `ynew.values` (`interpolate/__init__.py` 216-217): values are converted to the dtype of the input (`lib/python/numpy.h` 58-61). -/
def store (integer : Bool) (v : ℚ) : ℚ := if integer then FloatBins.truncate v else v

/-- A coord of the output from the new points (`interpolate/__init__.py` 218). -/
def newCoord (d : Dim) (p : Points) : Coord := ⟨d, [d], [p.n], fun c => p.values (c d), p.unit⟩

/-- `_remove_columns_in_dim` (`wrapping.py` 140-143) for coords. -/
def keptCoords (a : Arr) (d : Dim) : List Coord := a.coords.filter (fun x => !x.dims.contains d)

/-- `_remove_columns_in_dim` (`wrapping.py` 140-143) for masks. -/
def keptMasks (a : Arr) (d : Dim) : List Mask := a.masks.filter (fun m => !m.dims.contains d)

/-- The values found by SciPy (`interpolate/__init__.py` 204-210, 217), for all rows along the dim. -/
def evaluate (S : List ℚ → List ℚ → ℚ → ℚ) (b : Arr) (x : Coord) (d : Dim) (new : Nat → ℚ) (c : Dim → Nat) : ℚ :=
  S ((List.range (b.size d)).map (fun i => x.values (along c d i))) ((List.range (b.size d)).map (fun i => b.values (along c d i))) (new (c d))

/-- `func` (`interpolate/__init__.py` 193-218), with metadata added by `add_observing_metadata` (`wrapping.py` 119-124). `b` is the data array without masked points, `a` the input. The coord must be one-dimensional (SciPy). -/
def func (S : List ℚ → List ℚ → ℚ → ℚ) (a b : Arr) (d : Dim) (p : Points) (mid : Bool) : Except Err Arr :=
  match b.coords.find? (fun x => x.name == d) with
  | none => .error .notFound
  | some x =>
    if p.unit ≠ x.unit then .error .unit
    else if p.dims ≠ [d] then .error .dimension
    else if x.dims ≠ [d] then .error .invalidArgument
    else .ok {
      dims := b.dims
      size := fun e => if e = d then (newPoints p mid).1 else b.size e
      values := fun c => store b.integer (evaluate S b x d (newPoints p mid).2 c)
      integer := b.integer
      variances := false
      unit := b.unit
      coords := newCoord d p :: keptCoords a d
      masks := keptMasks a d }

/-- `interp1d(da, dim)(xnew, midpoints=mid)` with the checks of `wrap1d` (`wrapping.py` 70-92; `interpolate/__init__.py` 54-220). -/
def interp1d (S : List ℚ → List ℚ → ℚ → ℚ) (a : Arr) (d : Dim) (p : Points) (mid : Bool) : Except Err Arr :=
  if a.variances then .error .variances
  else
    match a.coords.find? (fun x => x.name == d) with
    | none => .error .notFound
    | some x =>
      match (x.dims.zip x.lens).find? (fun e => e.1 == d) with
      | none => .error .notFound
      | some e =>
        if a.dims.contains d = false then .error .notFound
        else if e.2 ≠ a.size d then .error .binEdge
        else
          match dropMasked a d with
          | .error err => .error err
          | .ok b => func S a b d p mid

end Scipp.Interp
