import Verif.Model.Sizes
import Mathlib.Algebra.Field.Rat
/-
New objects like given ones: `zeros_like`, `ones_like`, `full_like` (`src/scipp/core/like.py`) with `rewrap_output_data` (`src/scipp/core/concepts.py`).

Values are in buffers, which are in a heap, a list. Variables are contiguous and use a whole buffer each. Attributes are handled as coords and not modelled, nor is the name.
-/
namespace Scipp.Like
open Scipp

/-- A variable: dims, unit, dtype, buffers of values and variances (`src/scipp/core/like.py` 42-48). -/
structure Var where
  dims : List (Dim × Nat)
  unit : Nat
  dtype : Nat
  buf : Nat
  vbuf : Option Nat
deriving DecidableEq

/-- A data array, or a variable if there is no metadata (`src/scipp/core/concepts.py` 24-33). -/
structure Obj where
  data : Var
  info : Option (List (Nat × Var) × List (Nat × Var))
deriving DecidableEq

/-- The number of elements (`src/scipp/core/like.py` 44). -/
def volume (dims : List (Dim × Nat)) : Nat := dims.foldl (fun n d => n * d.2) 1

/-- A new buffer (`src/scipp/core/variable.py` 171-176, 232-237, 361-365). -/
def alloc (h : List (List ℚ)) (xs : List ℚ) : List (List ℚ) × Nat := (h ++ [xs], h.length)

/-- `zeros`, `ones` or `full` with dims, shape, unit and dtype of an object (`src/scipp/core/like.py` 42-48, 81-87, 167-174). -/
def newVar (h : List (List ℚ)) (v : Var) (value : ℚ) (variance : Option ℚ) : List (List ℚ) × Var :=
  let a := alloc h (List.replicate (volume v.dims) value)
  match variance with
  | none => (a.1, { v with buf := a.2, vbuf := none })
  | some x =>
    let b := alloc a.1 (List.replicate (volume v.dims) x)
    (b.1, { v with buf := a.2, vbuf := some b.2 })

/-- Deep copy of a mask (`src/scipp/core/concepts.py` 15-16). Simplified: a mask has no variances. -/
def copyVar (h : List (List ℚ)) (v : Var) : List (List ℚ) × Var :=
  let a := alloc h (h.getD v.buf [])
  (a.1, { v with buf := a.2, vbuf := none })

/-- `_copied` (`src/scipp/core/concepts.py` 15-16). -/
def copied (h : List (List ℚ)) : List (Nat × Var) → List (List ℚ) × List (Nat × Var)
  | [] => (h, [])
  | (k, v) :: l =>
    let a := copyVar h v
    let r := copied a.1 l
    (r.1, (k, a.2) :: r.2)

/-- `rewrap_output_data` (`src/scipp/core/concepts.py` 24-33). -/
def rewrap (h : List (List ℚ)) (o : Obj) (data : Var) : List (List ℚ) × Obj :=
  match o.info with
  | none => (h, ⟨data, none⟩)
  | some (coords, masks) =>
    let r := copied h masks
    (r.1, ⟨data, some (coords, r.2)⟩)

/-- `full_like` (`src/scipp/core/like.py` 167-175). -/
def fullLike (h : List (List ℚ)) (o : Obj) (value : ℚ) (variance : Option ℚ) : List (List ℚ) × Obj :=
  let r := newVar h o.data value variance
  rewrap r.1 o r.2

/-- `zeros_like` and `ones_like`, with value 0 or 1: variances have that value also, if there are any (`src/scipp/core/like.py` 42-49, 81-88). -/
def constLike (h : List (List ℚ)) (o : Obj) (value : ℚ) : List (List ℚ) × Obj := fullLike h o value (o.data.vbuf.map (fun _ => value))

end Scipp.Like
