import Verif.Model.Index

/-!
# Assignment of NumPy arrays

Models `copy_array_into_view` and what it uses, `lib/python/numpy.h` 70-309, which is behind
`var.values = array`, `var.variances = array` and `var['x', i] = array`. Addresses count elements
rather than bytes; arrays that share memory with a variable consist of elements at whole
multiples of the element size. Arrays of other dtypes are converted first, i.e. they do not share
memory.
-/

namespace Scipp.Numpy

/-- A NumPy array (`py::buffer_info`): address of the first element, shape and strides as used in
`lib/python/numpy.h` 215-223, in units of elements. -/
structure NpArray where
  /-- address of element 0 -/
  ptr : Int
  /-- extents -/
  shape : List Int
  /-- strides, may be zero or negative -/
  strides : List Int
deriving DecidableEq

/-- The flag queried by `is_c_contiguous` (`numpy.h` 75-83): NumPy's rule, innermost dim first,
`sd` being the stride expected next; dims of length 1 are ignored. -/
def contiguousLoop : List (Int × Int) → Int → Bool
  | [], _ => true
  | (n, s) :: rest, sd => if n = 1 then contiguousLoop rest sd else s = sd && contiguousLoop rest (n * sd)

/-- `is_c_contiguous` (`numpy.h` 75-83); arrays without elements are contiguous. -/
def isCContiguous (a : NpArray) : Bool :=
  a.shape.contains 0 || contiguousLoop (a.shape.zip a.strides).reverse 1

/-- Addresses read by the nested loops of `copy_array_1d` … `copy_array_6d` (`numpy.h` 102-196),
in order: one loop per dim, `src(i, j, …)` being the element at `i * stride₀ + j * stride₁ + …`. -/
def nestedAddrs : List Int → List Int → Int → List Int
  | n :: shape, s :: strides, ptr => (List.range n.toNat).flatMap fun (i : Nat) => nestedAddrs shape strides (ptr + i * s)
  | _, _, ptr => [ptr]

/-- Addresses read by `copy_flattened` (`numpy.h` 198-212). -/
def flatAddrs (size : Nat) (ptr : Int) : List Int := (List.range size).map fun (i : Nat) => ptr + i

/-- The view assigned to: the pointer of `ElementArrayView`, its dims and strides
(`lib/core/include/scipp/core/element_array_view.h` 96-124). -/
structure Target where
  /-- address of the first element -/
  base : Int
  /-- dims -/
  dims : Dims
  /-- strides -/
  strides : List Int

/-- `memory_overlaps` (`numpy.h` 225-238): the bounds of the array against the addresses of the
begin and end iterator of the view. -/
def memoryOverlaps (a : NpArray) (t : Target) : Except Err Bool := do
  let b ← iterAt t.dims t.strides 0
  let e ← iterAt t.dims t.strides (Dims.volume t.dims)
  let bounds := memoryBounds a.shape a.strides
  .ok (decide (a.ptr + bounds.1 < t.base + e.mem) && decide (a.ptr + bounds.2 > t.base + b.mem))

/-- Iterator of a loop over a block starting at position `b`, after `n` rounds (`begin +
range.begin()` and `++it`, e.g. `numpy.h` 109-112). -/
def advanced (t : Target) (b : Int) (n : Nat) : Except Err ViewIndex := do
  let it ← iterAt t.dims t.strides b
  .ok ((List.replicate n IterOp.inc).foldl IterOp.run it)

/-- `copy_element` for position `k` in a block starting at `b` (`numpy.h` 86-92, 109-112 and the
other loops). `addrs` are the addresses of the source elements in order; they refer to `snapshot`
if the source has been copied, otherwise to the memory as it is now. -/
def copyElement {V : Type} (addrs : List Int) (snapshot : Option (Int → V)) (t : Target) (mem : Int → V) (b k : Nat) :
    Except Err (Int → V) := do
  let it ← advanced t b (k - b)
  match addrs[k]? with
  | none => .error .ub
  | some a => .ok (fun x => if x = t.base + it.mem then (snapshot.getD mem) a else mem x)

/-- All `copy_element` calls in the order in which they happen; each is given by the start of its
block and its position. The blocks of `parallel_for` (`numpy.h` 106-113, 120-126, …) may be
processed by different threads, so that any order of positions may result. -/
def copyAll {V : Type} (addrs : List Int) (snapshot : Option (Int → V)) (t : Target) :
    (Int → V) → List (Nat × Nat) → Except Err (Int → V)
  | mem, [] => .ok mem
  | mem, (b, k) :: rest => do copyAll addrs snapshot t (← copyElement addrs snapshot t mem b k) rest

/-- Product of the extents, `py::array::size` (used in `numpy.h` 256). -/
def NpArray.size (a : NpArray) : Int := a.shape.foldl (· * ·) 1

/-- `copy_elements` (`numpy.h` 254-290). If memory overlaps, `dispatch` is given a copy: an array of
its own memory, contiguous, with the same elements in the same order; reading element `k` of it is
reading the `k`-th element of the original array as it was before the assignment. -/
def copyElements {V : Type} (a : NpArray) (t : Target) (mem : Int → V) (order : List (Nat × Nat)) :
    Except Err (Int → V) := do
  if Dims.volume t.dims ≠ a.size then .error .runtime
  else if ← memoryOverlaps a t then copyAll (nestedAddrs a.shape a.strides a.ptr) (some mem) t mem order
  else if isCContiguous a then copyAll (flatAddrs a.size.toNat a.ptr) none t mem order
  else if a.shape.length > 6 then .error .runtime
  else copyAll (nestedAddrs a.shape a.strides a.ptr) none t mem order

/-- `copy_array_into_view` (`numpy.h` 293-309). -/
def copyArrayIntoView {V : Type} (a : NpArray) (t : Target) (mem : Int → V) (order : List (Nat × Nat)) :
    Except Err (Int → V) :=
  if Sizes.shape t.dims ≠ a.shape then .error .dimension
  else copyElements a t mem order

/-- The array returned by `var.values` (`as_py_array_t_impl`, `lib/python/bind_data_access.h`
78-107, and `numpy_strides` 45-54): same memory, same shape, same strides. Read-only variables
give an array with the flag for writing cleared, not modelled. -/
def valuesOf (v : View) : NpArray := ⟨v.offset, Sizes.shape v.dims, v.strides⟩

/-- The view assigned to by `var.values = array` (`set_values`, `lib/python/bind_data_access.h`
295-303) for element types that are not structured. -/
def targetOf (v : View) : Target := ⟨v.offset, v.dims, v.strides⟩

end Scipp.Numpy
