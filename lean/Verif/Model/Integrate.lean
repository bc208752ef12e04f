import Verif.Model.Sizes
import Mathlib.Algebra.Field.Rat
import Mathlib.Algebra.BigOperators.Group.List.Basic
/-
Integration along a dim with the trapezoidal rule (`src/scipp/scipy/integrate/__init__.py`) with the wrapper for functions of one dim (`src/scipp/compat/wrapping.py`).

Numbers are rational. SciPy's `trapezoid` is modelled as documented there: a one-dimensional `x` is used for all rows along `axis`, otherwise `x` is used like `y`, by position. Not modelled: broadcasting of `x` with several dims but of another shape (an error here), `simpson`.
-/
namespace Scipp.Integrate
open Scipp

/-- A variable with its array of NumPy: labels and lengths of dims, values by position (`src/scipp/scipy/integrate/__init__.py` 27). -/
structure Var where
  dims : List Dim
  shape : List Nat
  get : List Nat → ℚ

/-- A coord: values and unit (`src/scipp/scipy/integrate/__init__.py` 27-29). -/
structure Coord (U : Type) where
  var : Var
  unit : Option U

/-- A mask: only dims matter, contents are a number (`src/scipp/compat/wrapping.py` 18-27). -/
structure Mask where
  dims : List Dim
  val : Nat

/-- A data array (`src/scipp/compat/wrapping.py` 70-84, 99-124). -/
structure Arr (U : Type) where
  data : Var
  variances : Bool
  unit : Option U
  coords : List (Dim × Coord U)
  masks : List (Dim × Mask)

/-- The length along a dim, `sizes[dim]` (`src/scipp/compat/wrapping.py` 78). -/
def Var.len (v : Var) (dim : Dim) : Option Nat := if dim ∈ v.dims then v.shape[v.dims.idxOf dim]? else none

/-- SciPy's `trapezoid(x=x, y=y, axis=axis)`, called at `src/scipp/scipy/integrate/__init__.py` 27: values of the result by position. -/
def trapezoid (x y : Var) (axis : Nat) : Except Err (List Nat → ℚ) :=
  if x.shape.length = 1 then
    .ok (fun idx => ((List.range (y.shape.getD axis 0 - 1)).map (fun k =>
      (x.get [k + 1] - x.get [k]) * (y.get (idx.insertIdx axis (k + 1)) + y.get (idx.insertIdx axis k)) / 2)).sum)
  else if x.shape = y.shape then
    .ok (fun idx => ((List.range (y.shape.getD axis 0 - 1)).map (fun k =>
      (x.get (idx.insertIdx axis (k + 1)) - x.get (idx.insertIdx axis k)) * (y.get (idx.insertIdx axis (k + 1)) + y.get (idx.insertIdx axis k)) / 2)).sum)
  else .error .invalidArgument

/-- `_validated_masks` (`src/scipp/compat/wrapping.py` 18-27). -/
def validatedMasks (masks : List (Dim × Mask)) (dim : Dim) : Except Err (List (Dim × Mask)) :=
  if masks.any (fun m => m.2.dims.contains dim) then .error .dimension else .ok masks

/-- `_integrate` in `wrap1d()` with `_postprocess` (`src/scipp/scipy/integrate/__init__.py` 19-30; `src/scipp/compat/wrapping.py` 70-92, 99-143). `mul` is multiplication of units. -/
def integrate {U : Type} (mul : U → U → U) (da : Arr U) (dim : Dim) : Except Err (Arr U) :=
  if da.variances then .error .variances
  else
    match da.data.len dim, (da.coords.find? (fun c => c.1 == dim)).map (·.2) with
    | none, _ => .error .dimension
    | some _, none => .error .notFound
    | some n, some x =>
      match x.var.len dim with
      | none => .error .dimension
      | some m =>
        if n ≠ m then .error .binEdge
        else
          let axis := da.data.dims.idxOf dim
          match trapezoid x.var da.data axis with
          | .error e => .error e
          | .ok get =>
            match da.unit, x.unit with
            | some u, some v =>
              match validatedMasks da.masks dim with
              | .error e => .error e
              | .ok masks =>
                .ok ⟨⟨da.data.dims.filter (· != dim), da.data.shape.eraseIdx axis, get⟩, false, some (mul u v), da.coords.filter (fun c => !c.2.var.dims.contains dim), masks⟩
            | _, _ => .error .dtype

end Scipp.Integrate
