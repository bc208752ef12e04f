import Verif.Model.PyDictConvert

/-! # Objects that survive the conversion to a dict and back -/

namespace Scipp.PyDictConvert

variable {V : Type}

/-- A variable as it can exist: one extent per dimension, and no variances if the type has none. -/
def Var.Valid (v : Var V) : Prop := v.shape.length = v.dims.length ∧ (v.dtype.structured = true → v.variances = none)

/-- The variables for which the conversion works: no bins, no affine transformations, arrays of strings only with one dimension, vectors and linear transformations only if
aligned. -/
def Var.Good (v : Var V) : Prop :=
  match v.dtype with
  | .plain _ => True
  | .string => v.dims.length ≤ 1
  | .vector3 | .linear => v.aligned = true
  | .affine | .binned => False

/-- A variable that exists and for which the conversion works. -/
def Var.Ok (v : Var V) : Prop := v.Valid ∧ v.Good

/-- All variables of the list are. -/
def AllOk (l : List (String × Var V)) : Prop := ∀ p ∈ l, p.2.Ok

/-- All variables of a data array are. -/
def DataArray.Ok (a : DataArray V) : Prop := a.data.Ok ∧ AllOk a.coords ∧ AllOk a.masks ∧ AllOk a.attrs

/-- All variables of a dataset are. -/
def Dataset.Ok (d : Dataset V) : Prop :=
  AllOk d.coords ∧ ∀ p ∈ d.items, p.2.data.Ok ∧ AllOk p.2.masks ∧ AllOk p.2.attrs

/-- The names that a dict of a variable has. -/
def variableKeys : List String := ["dims", "values", "variances", "unit", "dtype", "shape", "aligned"]

end Scipp.PyDictConvert
