import Verif.Model.Sizes
import Mathlib.Algebra.Field.Rat
/-
Matrices from NumPy arrays: `linear_transforms`, `affine_transforms`, `scalings_from_vectors` (`src/scipp/spatial/__init__.py`) with `make_structured_variable` (`lib/python/variable_init.cpp`).

An array of matrices is a list of matrices, a matrix is a list of rows. There is one dimension; the order of elements in more dimensions is that of NumPy.
-/
namespace Scipp.MatrixLayout
open Scipp

/-- `_to_eigen_layout` for one `n × n` matrix (`src/scipp/spatial/__init__.py` 37-40). -/
def toEigen (n : Nat) (m : List (List ℚ)) : List (List ℚ) := (List.range n).map (fun j => m.map (fun r => r.getD j 0))

/-- The buffer of `linear_transforms` (`n = 3`, `src/scipp/spatial/__init__.py` 432-437) and `affine_transforms` (`n = 4`, 374-379), which is the array row by row (`lib/python/variable_init.cpp` 255-263). -/
def create (n : Nat) (ms : List (List (List ℚ))) : List ℚ := (ms.map (fun m => (toEigen n m).flatten)).flatten

/-- Element in row `i`, column `j` of an Eigen matrix, the `e`-th in a buffer; Eigen stores columns one after the other (`src/scipp/spatial/__init__.py` 38-39). -/
def entry (n : Nat) (buf : List ℚ) (e i j : Nat) : Option ℚ := buf[e * (n * n) + (j * n + i)]?

/-- Offset of the field for row `i` and column `j`, such as `xy` for 0 and 1 (`lib/variable/variable_instantiate_linalg.cpp` 25-32). -/
def offset : Nat → Nat → Nat
  | 0, 0 => 0
  | 0, 1 => 3
  | 0, _ => 6
  | 1, 0 => 1
  | 1, 1 => 4
  | 1, _ => 7
  | _, 0 => 2
  | _, 1 => 5
  | _, _ => 8

/-- Reading a field of matrices (`lib/variable/variable_instantiate_linalg.cpp` 25-32). -/
def field (buf : List ℚ) (e i j : Nat) : Option ℚ := buf[e * 9 + offset i j]?

/-- Setting a field of all matrices (`src/scipp/spatial/__init__.py` 174-177). -/
def setField (buf : List ℚ) (i j : Nat) (vals : List ℚ) : List ℚ := buf.mapIdx (fun k x => if k % 9 = offset i j then vals.getD (k / 9) 0 else x)

/-- `scalings_from_vectors` (`src/scipp/spatial/__init__.py` 169-178). -/
def scalings (vs : List (List ℚ)) : List ℚ :=
  let b := create 3 (List.replicate vs.length [[1, 0, 0], [0, 1, 0], [0, 0, 1]])
  let b := setField b 0 0 (vs.map (fun v => v.getD 0 0))
  let b := setField b 1 1 (vs.map (fun v => v.getD 1 0))
  setField b 2 2 (vs.map (fun v => v.getD 2 0))

end Scipp.MatrixLayout
