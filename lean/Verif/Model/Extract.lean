import Verif.Model.Bins
/-
Model of `lib/dataset/extract.cpp` (boolean indexing) and `lib/dataset/sort.cpp`.

A data array is a `Bins.Table`: rows along the dim that is indexed or sorted, where a row of the data is a slice of the data at one
position along the dim. A column depending on the dim has as many rows as the data, or one more if it holds bin edges.
-/
namespace Scipp.Bins
variable {V : Type}

/-- `is_edges(da.dims(), var.dims(), dim)` (`lib/core/sizes.cpp` 196-212) for a coord, mask or attr fitting the data. -/
def Col.isEdges (n : Nat) : Col V → Bool
  | .along rows => decide (rows.length = n + 1)
  | .fixed _ => false

/-- `strip_edges_along` (`lib/dataset/util.cpp` 189-202). -/
def Table.stripEdges (t : Table V) : Table V := ⟨t.data, t.cols.filter (fun p => !p.2.isEdges t.data.length)⟩

/-- `extract_ranges` for dense data (`extract.cpp` 69-86): the buffer of a copy of bins given by the ranges. The ranges are not validated. -/
def extractRanges (eqv : V → V → Bool) (init : Nat → V) (dim : Dim) (ranges : List (Int × Int)) (t : Table V) : Except Err (Table V) := do
  let out ← copy eqv init ⟨ofValues [(dim, (ranges.length : Int))] ranges, t.stripEdges⟩
  return out.buffer

/-- `extract_ranges` for 1-D binned data without coords (`extract.cpp` 69-86 and 45-67): first the pairs of indices of the bins are
extracted, then the bins they refer to are copied. -/
def extractRangesBinned (eqv : V → V → Bool) (init : Nat → V) (initPair : Nat → Int × Int) (dim : Dim) (ranges : List (Int × Int))
    (indices : List (Int × Int)) (buffer : Table V) : Except Err (Binned V) := do
  let out ← extractRanges (fun _ _ => true) initPair dim ranges ⟨indices, []⟩
  copy eqv init ⟨ofValues [(dim, (out.data.length : Int))] out.data, buffer⟩

/-- Body of the loop of `extract_impl` (`extract.cpp` 104-111) for element `i`. `indices.back()` of an empty vector is undefined. -/
def rangeStep (values : List Bool) (indices : List (Int × Int)) (i : Nat) : Except Err (List (Int × Int)) :=
  if 0 < i ∧ values[i - 1]? = values[i]? then .ok indices
  else if values[i]? = some true then .ok (indices ++ [((i : Int), (values.length : Int))])
  else if i ≠ 0 then
    match indices.getLast? with
    | none => .error .ub
    | some last => .ok (indices.dropLast ++ [(last.1, (i : Int))])
  else .ok indices

/-- The loop of `extract_impl` (`extract.cpp` 102-111). -/
def conditionRanges (values : List Bool) : Except Err (List (Int × Int)) :=
  (List.range values.length).foldlM (rangeStep values) []

/-- `extract` with a boolean condition along `dim` (`extract.cpp` 89-128). The condition is 1-D with `values.length` elements; the dims of
the data array must include its dims (97-101). -/
def extract (eqv : V → V → Bool) (init : Nat → V) (dim : Dim) (values : List Bool) (t : Table V) : Except Err (Table V) := do
  if values.length ≠ t.data.length then throw .dimension
  let ranges ← conditionRanges values
  extractRanges eqv init dim ranges t

@[inherit_doc extract]
def extractBinned (eqv : V → V → Bool) (init : Nat → V) (initPair : Nat → Int × Int) (dim : Dim) (values : List Bool)
    (indices : List (Int × Int)) (buffer : Table V) : Except Err (Binned V) := do
  if values.length ≠ indices.length then throw .dimension
  let ranges ← conditionRanges values
  extractRangesBinned eqv init initPair dim ranges indices buffer

variable {α : Type} [LinearOrder α]

/-- `nan_sensitive_less` (`sort.cpp` 15-20); `none` is NaN. -/
def nanSensitiveLess : Option α → Option α → Bool
  | a, none => a.isSome
  | none, some _ => false
  | some x, some y => decide (x < y)

/-- `SortOrder` (`lib/dataset/include/scipp/dataset/sort.h`). -/
inductive SortOrder where
  | ascending
  | descending
  deriving DecidableEq

/-- The comparison passed to the sort algorithm (`sort.cpp` 34-43). -/
def sortLess (order : SortOrder) (a b : Option α × Nat) : Bool :=
  match order with
  | .ascending => nanSensitiveLess a.1 b.1
  | .descending => nanSensitiveLess b.1 a.1

/-- A sort algorithm: `core::parallel::parallel_sort`, i.e., `std::sort` or `tbb::parallel_sort`
(`lib/core/include/scipp/core/parallel-fallback.h`, `parallel-tbb.h`). The algorithm is not part of the code, only its contract is used. -/
abbrev Sorter (α : Type) := (Option α × Nat → Option α × Nat → Bool) → List (Option α × Nat) → List (Option α × Nat)

/-- `IndicesForSorting::apply` (`sort.cpp` 22-54). -/
def indicesForSorting (sorter : Sorter α) (key : List (Option α)) (order : SortOrder) : List (Int × Int) :=
  (sorter (sortLess order) key.zipIdx).map (fun p => ((p.2 : Int), (p.2 : Int) + 1))

/-- `sort` of a variable or data array (`sort.cpp` 75-91), including `require_same_shape` (63-70). -/
def sort (eqv : V → V → Bool) (init : Nat → V) (dim : Dim) (sorter : Sorter α) (key : List (Option α)) (order : SortOrder) (t : Table V) :
    Except Err (Table V) := do
  if t.data.length ≠ key.length then throw .dimension
  extractRanges eqv init dim (indicesForSorting sorter key order) t

/-- `sort` of a dataset (`sort.cpp` 93-102), for the table of one of its items: there is no check of the length of the key. -/
def sortDataset (eqv : V → V → Bool) (init : Nat → V) (dim : Dim) (sorter : Sorter α) (key : List (Option α)) (order : SortOrder)
    (t : Table V) : Except Err (Table V) :=
  extractRanges eqv init dim (indicesForSorting sorter key order) t

end Scipp.Bins
