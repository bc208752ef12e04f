import Verif.Model.View
/-
Model of the access to the elements of structured variables (vectors, matrices, pairs of indices):
`lib/variable/include/scipp/variable/structure_array_variable.tcc`, `structure_array_model.h`, `lib/variable/variable_instantiate_linalg.cpp`.

A structured variable is a view into an array of structures. The memory is an array of elements (`Var.buf`); `get_values` (`.tcc` 57-66) casts
the pointer, so structure `k` consists of the elements `N * k, ..., N * k + N - 1`.
-/
namespace Scipp

/-- `Dim::InternalStructureComponent` (`lib/units/include/scipp/units/dim.h`). -/
def Dim.structureComponent : Dim := 1001

/-- `Dim::InternalStructureRow` (`lib/units/include/scipp/units/dim.h`). -/
def Dim.structureRow : Dim := 1002

/-- `Dim::InternalStructureColumn` (`lib/units/include/scipp/units/dim.h`). -/
def Dim.structureColumn : Dim := 1003

namespace View

/-- The part common to all cases of `elements_impl` (`structure_array_variable.tcc` 21-28): offset and strides are scaled. -/
def scaled (v : View) (N : Int) : View := { v with offset := v.offset * N, strides := v.strides.map (N * ·) }

/-- `elements<T>()` (`structure_array_variable.tcc` 29-32): a new inner dim for the elements of the structure. -/
def elements (v : View) (N : Int) : Except Err View := do
  let dims ← Dims.addInner v.dims Dim.structureComponent N
  .ok { v.scaled N with dims, strides := (v.scaled N).strides ++ [1] }

/-- `elements<T>(key)` (`structure_array_variable.tcc` 33-39) for the offset found for the key. -/
def element (v : View) (N off : Int) : Except Err View :=
  if off < 0 ∨ off ≥ N then .error .outOfRange
  else .ok { v.scaled N with offset := (v.scaled N).offset + off }

end View

/-- Offsets of the fields of a vector (`variable_instantiate_linalg.cpp` 16-22); `map::at` throws for other keys. -/
def vectorOffset (key : String) : Except Err Int :=
  match [("x", 0), ("y", 1), ("z", 2)].lookup key with
  | some k => .ok k
  | none => .error .outOfRange

/-- Offsets of the fields of a matrix (`variable_instantiate_linalg.cpp` 24-31). -/
def matrixOffset (key : String) : Except Err Int :=
  match [("xx", 0), ("xy", 3), ("xz", 6), ("yx", 1), ("yy", 4), ("yz", 7), ("zx", 2), ("zy", 5), ("zz", 8)].lookup key with
  | some k => .ok k
  | none => .error .outOfRange

/-- Offsets of the fields of a pair of indices (`variable_instantiate_linalg.cpp` 52-58). -/
def pairOffset (key : String) : Except Err Int :=
  match [("begin", 0), ("end", 1)].lookup key with
  | some k => .ok k
  | none => .error .outOfRange

/-- `elements<Eigen::Matrix3d>(key)` (`structure_array_variable.tcc` 47-49). -/
def View.matrixField (v : View) (key : String) : Except Err View := do v.element 9 (← matrixOffset key)

/-- `elements<Eigen::Vector3d>(key)` (`structure_array_variable.tcc` 47-49). -/
def View.vectorField (v : View) (key : String) : Except Err View := do v.element 3 (← vectorOffset key)

/-- `elements<scipp::index_pair>(key)` (`structure_array_variable.tcc` 47-49). -/
def View.pairField (v : View) (key : String) : Except Err View := do v.element 2 (← pairOffset key)

/-- `get_matrix_elements` for 3x3 matrices (`lib/python/bind_data_access.h` 195-208): the array of all elements that is shown in Python. -/
def View.matrixArray (v : View) : Except Err View := do
  let elems ← v.elements 9
  let elems ← elems.fold Dim.structureComponent [(Dim.structureRow, 3), (Dim.structureColumn, 3)]
  let labels := Sizes.labels elems.dims
  elems.transpose (labels.take (labels.length - 2) ++ (labels.drop (labels.length - 2)).reverse)

/-- `zip` (`lib/variable/util.cpp` 87-91, `core/element/util.h` 107-116) of variables with elements `first` and `second` at named coordinates:
a new variable of pairs, filled in row-major order. What `transform` computes is the subject of C11 and C12. -/
def zip (dims : Dims) (first second : (Dim → Int) → Int) : Var Int :=
  ⟨View.fresh dims, fun a => if a % 2 = 0 then first (coordsOf dims (a / 2)) else second (coordsOf dims (a / 2))⟩

/-- `unzip` (`util.cpp` 95-98). -/
def unzip (x : Var Int) : Except Err (Var Int × Var Int) := do
  let b ← x.view.pairField "begin"
  let e ← x.view.pairField "end"
  .ok (⟨b, x.buf⟩, ⟨e, x.buf⟩)

/-- Writing through a view (`copy(elems, var.elements<T>(key))`, `lib/python/variable.cpp` 36-42): the elements seen by the view take the given
values. Where several coordinates refer to one element any of them may win; `pick` chooses. -/
def Var.write {α : Type} (x : Var α) (values : (Dim → Int) → α) (pick : Int → Option (Dim → Int)) : Var α :=
  ⟨x.view, fun a => match pick a with
    | some c => values c
    | none => x.buf a⟩

end Scipp
