import Verif.Model.PyIndex
/-
`collapse` and `slices` (`src/scipp/utils/collapse_and_slices.py`): all slices of an object along some dimensions, in a dict.

The object is a variable; data arrays and datasets, which slice their coords and masks in addition (C44, C81), are not modelled. Neither are
dimensions with more elements than fit into a 32 bit integer (line 17). Text is a list of characters; `name` gives the text of a label.
-/
namespace Scipp.Collapse

/-- All tuples of indices in row-major order (the order of the elements of a NumPy array; `np.reshape`, `collapse_and_slices.py` 26). -/
def tuples : List Nat → List (List Nat)
  | [] => [[]]
  | n :: rest => (List.range n).flatMap fun i => (tuples rest).map (i :: ·)

/-- NumPy's `meshgrid` exchanges the first two axes (`collapse_and_slices.py` 22; documentation of NumPy, `indexing='xy'`). -/
def swap {α : Type} : List α → List α
  | a :: b :: rest => b :: a :: rest
  | l => l

/-- The columns of `res` (`collapse_and_slices.py` 17-26): tuples of indices in the order of the elements of the grid. -/
def grid (shape : List Nat) : List (List Nat) := (tuples (swap shape)).map swap

/-- `all_slices[key] = vslice` for a Python dict (`collapse_and_slices.py` 57). -/
def dictSet (d : List (List Char × View)) (k : List Char) (v : View) : List (List Char × View) :=
  if d.any (fun e => e.1 == k) then d.map (fun e => if e.1 == k then (k, v) else e) else d ++ [(k, v)]

/-- The inner loop of `_to_slices` (`collapse_and_slices.py` 51-56). -/
def walk (name : Dim → List Char) : List (Dim × Nat) → View → List Char → Except Err (View × List Char)
  | [], v, key => .ok (v, key)
  | (d, i) :: rest, v, key =>
    match Py.getitemInt v d i with
    | .error e => .error e
    | .ok w => walk name rest w (key ++ (name d ++ ':' :: Nat.toDigits 10 i ++ ['-']))

/-- The outer loop of `_to_slices` (`collapse_and_slices.py` 50-59). -/
def loop (name : Dim → List Char) (v : View) : List (List (Dim × Nat)) → List (List Char × View) → Except Err (List (List Char × View))
  | [], d => .ok d
  | line :: rest, d =>
    match walk name line v [] with
    | .error e => .error e
    | .ok (w, key) => loop name v rest (dictSet d key.dropLast w)

/-- `_to_slices` (`collapse_and_slices.py` 9-59). -/
def toSlices (name : Dim → List Char) (v : View) (dims : List (Dim × Int)) : Except Err (List (List Char × View)) :=
  loop name v ((grid (dims.map (fun d => d.2.toNat))).map (fun is => (dims.map (·.1)).zip is)) []

/-- `collapse` (`collapse_and_slices.py` 62-91). -/
def collapse (name : Dim → List Char) (v : View) (keep : Dim) : Except Err (List (List Char × View)) :=
  toSlices name v (v.dims.filter (fun d => d.1 != keep))

/-- `slices` (`collapse_and_slices.py` 94-110). The index of a label that is not there is a `ValueError`. -/
def slices (name : Dim → List Char) (v : View) (dim : Dim) : Except Err (List (List Char × View)) :=
  match v.dims.find? (fun d => d.1 == dim) with
  | none => .error .invalidArgument
  | some d => toSlices name v [d]

end Scipp.Collapse
