import Verif.Model.SizedDict
import Verif.Model.Index
/-
Model of equality comparison: `compare` in `lib/variable/variable.cpp`, the element loops in
`lib/variable/include/scipp/variable/element_array_model.h`, and `operator==` / `equals_nan` of
`SizedDict`, `DataArray` and `Dataset`.
-/
namespace Scipp

/-- A `Variable` as far as comparison is concerned (`lib/variable/include/scipp/variable/variable.h`, members
`m_dims`, `m_strides`, `m_offset`, `m_object`, `m_readonly`, `m_aligned`). `valid` tells whether `m_object` is set; unit,
dtype and the two buffers belong to the object. For binned data the "values" are the slices of the buffer, which are compared
with `operator==` of the buffer type (`lib/variable/include/scipp/variable/bin_array_model.h` 120-131). -/
structure CmpVar (V : Type) where
  valid : Bool := true
  obj : Nat
  unit : Nat
  dtype : Nat
  view : View
  aligned : Bool := true
  values : Int → V
  variances : Option (Int → V)

variable {V : Type}

/-- `Variable::is_same` (`lib/variable/variable.cpp` 292-296). -/
def CmpVar.isSame (a b : CmpVar V) : Bool :=
  decide (a.view.dims = b.view.dims) && decide (a.view.strides = b.view.strides) &&
    decide (a.view.offset = b.view.offset) && a.obj == b.obj

/-- The elements in the order visited by the iterators `begin()` and `end()` of an `ElementArrayView`
(`lib/core/include/scipp/core/element_array_view.h` 119-124). -/
def elementsOf (v : View) (buf : Int → V) : Except Err (List V) := do
  let b ← iterAt v.dims v.strides 0
  let e ← iterAt v.dims v.strides (Dims.volume v.dims)
  match collect ((Dims.volume v.dims).toNat + 1) b e with
  | some l => .ok (l.map (fun a => buf (v.offset + a)))
  | none => .error .ub

/-- `std::equal(first1, last1, first2, last2, pred)`: also false if the lengths differ. -/
def stdEqual (p : V → V → Bool) : List V → List V → Bool
  | [], [] => true
  | x :: xs, y :: ys => p x y && stdEqual p xs ys
  | _, _ => false

/-- `equals_impl` and `equals_nan_impl` (`element_array_model.h` 25-35 and 46-58) for two views. -/
def equalsImpl (p : V → V → Bool) (v w : View) (x y : Int → V) : Except Err Bool := do
  let a ← elementsOf v x
  let b ← elementsOf w y
  .ok (stdEqual p a b)

/-- Comparison of the variances, skipped unless the first operand has variances
(`lib/variable/include/scipp/variable/element_array_variable.tcc` 107-108, 119-120). `variances()` of an operand without
variances throws. -/
def equalsVariances (p : V → V → Bool) (a b : CmpVar V) : Except Err Bool :=
  match a.variances with
  | none => .ok true
  | some x =>
    match b.variances with
    | none => .error .variances
    | some y => equalsImpl p a.view b.view x y

/-- `ElementArrayModel<T>::equals` / `equals_nan` (`element_array_variable.tcc` 105-121). -/
def equalsData (p : V → V → Bool) (a b : CmpVar V) : Except Err Bool := do
  let v ← equalsImpl p a.view b.view a.values b.values
  if v then equalsVariances p a b else .ok false

/-- `compare` (`variable.cpp` 128-147). `p` is the comparison of elements selected by `equal_nan`. -/
def compareVars (p : V → V → Bool) (equalNan : Bool) (a b : CmpVar V) : Except Err Bool :=
  if equalNan && a.isSame b then .ok true
  else if !a.valid || !b.valid then .ok (a.valid == b.valid)
  else if a.unit ≠ b.unit then .ok false
  else if !Dims.eqDims a.view.dims b.view.dims then .ok false
  else if a.dtype ≠ b.dtype then .ok false
  else if a.variances.isSome != b.variances.isSome then .ok false
  else if Dims.volume a.view.dims = 0 then .ok true
  else equalsData p a b

/-- Element comparison of `equals_nan` (`element_array_model.h` 37-44) from `isnan` and `==` of a floating-point
element type. -/
def equalsNanElem (isnan : V → Bool) (eq : V → V → Bool) (a b : V) : Bool :=
  if isnan a && isnan b then true else eq a b

section Dict
variable {α : Type}

/-- `item_in_other` (`lib/dataset/sized_dict.cpp` 98-108) and the corresponding tests in
`small_stable_map::operator==` (`lib/core/sizes.cpp` 41-43) and `Dataset::operator==` (`lib/dataset/dataset.cpp` 280-282). -/
def itemInOther (cmp : α → α → Bool) (other : List (Dim × α)) (p : Dim × α) : Bool :=
  match lookupEntry other p.1 with
  | none => false
  | some y => cmp p.2 y

/-- Comparison of two maps: `SizedDict::operator==` and `equals_nan` (`sized_dict.cpp` 111-131),
`small_stable_map::operator==` (`sizes.cpp` 37-45). -/
def dictEq (cmp : α → α → Bool) (a b : List (Dim × α)) : Bool :=
  a.length == b.length && a.all (itemInOther cmp b)

end Dict

/-- Comparison of two coords or masks, given the comparison of variables: values and alignment
(`sized_dict.cpp` 106-107). Here `α` stands for a variable with its alignment flag. -/
def itemCmp (eq : V → V → Bool) (x y : V × Bool) : Bool := eq x.1 y.1 && x.2 == y.2

/-- A data array as far as comparison is concerned (`lib/dataset/include/scipp/dataset/data_array.h`, members). Variables are
abstract values, dictionaries carry the alignment flags. The name is a member, too. -/
structure CmpArray (V : Type) where
  name : Nat
  data : V
  coords : List (Dim × (V × Bool))
  masks : List (Dim × (V × Bool))
  attrs : List (Dim × (V × Bool))

/-- `operator==(DataArray, DataArray)` (`lib/dataset/data_array.cpp` 88-99) with `hasVar` for the first test, which is
part of the comparison of the data. With `hasVar` constant this is `equals_nan` (105-113). -/
def arrayEq (hasVar : V → Bool) (eq : V → V → Bool) (a b : CmpArray V) : Bool :=
  if hasVar a.data != hasVar b.data then false
  else if !dictEq (itemCmp eq) a.coords b.coords then false
  else if !dictEq (itemCmp eq) a.masks b.masks then false
  else if !dictEq (itemCmp eq) a.attrs b.attrs then false
  else eq a.data b.data

/-- A dataset as far as comparison is concerned (`lib/dataset/include/scipp/dataset/dataset.h`, members `m_coords`, `m_data`).
The items come with the coords attached by `operator[]`. -/
structure CmpDataset (V : Type) where
  coords : List (Dim × (V × Bool))
  items : List (Dim × CmpArray V)

/-- `Dataset::operator==` and `equals_nan` (`lib/dataset/dataset.cpp` 275-300). -/
def datasetEq (hasVar : V → Bool) (eq : V → V → Bool) (a b : CmpDataset V) : Bool :=
  if a.items.length ≠ b.items.length then false
  else if !dictEq (itemCmp eq) a.coords b.coords then false
  else a.items.all (itemInOther (arrayEq hasVar eq) b.items)

end Scipp
