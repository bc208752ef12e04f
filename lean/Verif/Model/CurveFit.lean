import Verif.Model.Sizes
/-
Fits of every slice of a data array: `scipp.curve_fit` (`src/scipp/curve_fit.py`).

The fit of one set of points is that of SciPy and left open: a function of the points, initial guesses, variances, and bounds. Values, coords, and masks are functions of a position. Not modelled: units, how initial
guesses and bounds are made from numbers (119-168), the call of the function to fit (24-45), and the checks of arguments (490-500).
-/
namespace Scipp.CurveFit
open Scipp

/-- A position: the index along each dim (`lib/core/include/scipp/core/dimensions.h`). -/
abbrev Pos := Dim → Nat

/-- A variable (`lib/variable/include/scipp/variable/variable.h`): dims with lengths, and elements. -/
structure Col (α : Type) where
  dims : List (Dim × Nat)
  el : Pos → α

/-- A data array (`lib/dataset/include/scipp/dataset/data_array.h`): values, variances, coords, masks. -/
structure Array (V : Type) where
  dims : List (Dim × Nat)
  val : Pos → V
  var : Option (Pos → V)
  coords : List (Nat × Col V)
  masks : List (Nat × Col Bool)

/-- The function to find the best parameters, `scipy.optimize.curve_fit` (`curve_fit.py` 250-258): points with values of the coords and of the data, initial guesses, variances, and bounds give parameters and covariances. -/
abbrev Solver (V : Type) := List (List V × V) → List V → Option (List V) → List (V × V) → Except Err (List V × List (List V))

/-- The position with one index replaced, as in `da[dim, i]` (`curve_fit.py` 197). -/
def place (c : Pos) (d : Dim) (i : Nat) : Pos := fun e => if e = d then i else c e

/-- `v[dim, i] if dim in v.dims else v` (`curve_fit.py` 198-204). -/
def Col.slice {α : Type} (v : Col α) (d : Dim) (i : Nat) : Col α :=
  if (v.dims.map (·.1)).contains d then ⟨v.dims.filter (fun p => p.1 != d), fun c => v.el (place c d i)⟩ else v

/-- `da[dim, i]` (`curve_fit.py` 197; `lib/dataset/slice.cpp`). -/
def Array.slice {V : Type} (a : Array V) (d : Dim) (i : Nat) : Array V :=
  ⟨a.dims.filter (fun p => p.1 != d), fun c => a.val (place c d i), a.var.map (fun f c => f (place c d i)),
    a.coords.map (fun e => (e.1, e.2.slice d i)), a.masks.map (fun e => (e.1, e.2.slice d i))⟩

/-- The positions in the order of `flatten` (`curve_fit.py` 227; C06), the last dim fastest. -/
def positions : List (Dim × Nat) → List Pos
  | [] => [fun _ => 0]
  | (d, n) :: rest => (List.range n).flatMap fun i => (positions rest).map fun c => place c d i

/-- `not sigma.all()` (`curve_fit.py` 48-59). -/
def zeroVariance {V : Type} [Zero V] [DecidableEq V] (var : Option (Pos → V)) (rows : List Pos) : Bool :=
  match var with
  | none => false
  | some f => rows.any (fun c => f c == 0)

/-- One fit (`curve_fit.py` 213-266); `none` is NaN for all parameters. `RuntimeError` of SciPy is raised again, as exceptions have no attribute `message` (259-264). -/
def leaf {V : Type} [Zero V] [DecidableEq V] (solve : Solver V) (a : Array V) (p0 : List (Nat × Col V)) (bounds : List (Nat × Col V × Col V)) :
    Except Err (Option (List V × List (List V))) :=
  if p0.any (fun e => !e.2.dims.isEmpty) then .error .dimension
  else if bounds.any (fun e => !e.2.1.dims.isEmpty || !e.2.2.dims.isEmpty) then .error .dimension
  else
    let rows := (positions a.dims).filter (fun c => !a.masks.any (fun e => e.2.el c))
    if rows.length < p0.length then .ok none
    else if zeroVariance a.var rows then .error .invalidArgument
    else (solve (rows.map fun c => (a.coords.map (fun e => e.2.el c), a.val c)) (p0.map fun e => e.2.el (fun _ => 0)) (a.var.map fun f => rows.map f)
      (bounds.map fun e => (e.2.1.el (fun _ => 0), e.2.2.el (fun _ => 0)))).map some

/-- `_curve_fit` (`curve_fit.py` 179-211): the results in the order of the output arrays, the last dim fastest. -/
def run {V : Type} [Zero V] [DecidableEq V] (solve : Solver V) : List (Dim × Nat) → Array V → List (Nat × Col V) → List (Nat × Col V × Col V) →
    Except Err (List (Option (List V × List (List V))))
  | [], a, p0, bounds => (leaf solve a p0 bounds).map fun r => [r]
  | (d, n) :: rest, a, p0, bounds => ((List.range n).mapM fun i =>
      run solve rest (a.slice d i) (p0.map fun e => (e.1, e.2.slice d i)) (bounds.map fun e => (e.1, e.2.1.slice d i, e.2.2.slice d i))).map List.flatten

/-- The result (`curve_fit.py` 64-93): dims, the results of the fits, coords, and masks. The parameters have the same dims, coords, and masks. -/
structure Out (V : Type) where
  dims : List (Dim × Nat)
  results : List (Option (List V × List (List V)))
  coords : List (Nat × Col V)
  masks : List (Nat × Col Bool)

/-- The length along a dim (`lib/core/sizes.cpp`, `Sizes::operator[]`). -/
def lengthOf (dims : List (Dim × Nat)) (d : Dim) : Option Nat := (dims.find? (fun p => p.1 == d)).map (·.2)

/-- Dims with an edge removed or made shorter (the loop of `SizedDict::set`, `lib/dataset/sized_dict.cpp` 239-247). -/
def withoutEdge (sizes : List (Dim × Nat)) : List (Dim × Nat) → Except Err (List (Dim × Nat))
  | [] => .ok []
  | (d, n) :: rest =>
    match lengthOf sizes d with
    | none => if n = 2 then .ok rest else .error .dimension
    | some m => if n = m + 1 then .ok ((d, m) :: rest) else (withoutEdge sizes rest).map fun r => (d, n) :: r

/-- Setting a coord or mask is possible (`SizedDict::set`, `lib/dataset/sized_dict.cpp` 221-250). -/
def canSet (sizes dims : List (Dim × Nat)) : Bool :=
  match withoutEdge sizes dims with
  | .error _ => false
  | .ok r => r.all (fun p => lengthOf sizes p.1 == some p.2)

/-- The dims which are not fitted (`curve_fit.py` 527-531). -/
def mapOver {V : Type} (a : Array V) (reduce : List Dim) (coords : List (Nat × Col V)) : List (Dim × Nat) :=
  a.dims.filter fun p => !reduce.contains p.1 && !coords.any (fun e => (e.2.dims.map (·.1)).contains p.1)

/-- `_datagroup_outputs` (`curve_fit.py` 62-109): coords which depend on a dim of the output, masks whose dims are those of the output. -/
def outputs {V : Type} (a : Array V) (dims : List (Dim × Nat)) (results : List (Option (List V × List (List V)))) : Except Err (Out V) :=
  let coords := a.coords.filter (fun e => e.2.dims.any (fun p => (dims.map (·.1)).contains p.1))
  let masks := a.masks.filter (fun e => e.2.dims.all (fun p => (dims.map (·.1)).contains p.1))
  if coords.all (fun e => canSet dims e.2.dims) then .ok ⟨dims, results, coords, masks⟩ else .error .dimension

/-- `curve_fit` (`curve_fit.py` 502-549) with the coords to fit given as variables (513-517), none of them bin edges (502-504). -/
def curveFit {V : Type} [Zero V] [DecidableEq V] (solve : Solver V) (coords : List (Nat × Col V)) (a : Array V) (p0 : List (Nat × Col V)) (bounds : List (Nat × Col V × Col V))
    (reduce : List Dim) : Except Err (Out V) := do
  let over := mapOver a reduce coords
  let results ← run solve over { a with coords := coords } p0 bounds
  outputs a over results

end Scipp.CurveFit
