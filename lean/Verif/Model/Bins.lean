import Verif.Model.Arr
import Verif.Model.SizedDict
import Verif.Model.Transform
/-
Model of operations moving ranges of rows between buffers of binned variables: `copy` of binned variables
(`lib/variable/include/scipp/variable/bin_array_model.h`, `bin_array_variable.tcc`), `copy_slices`,
`resize_default_init`, `concatenate` and `append` (`lib/dataset/bins.cpp`).

A buffer (`Variable`, `DataArray` or `Dataset`) is a table: its data, coords, attrs and masks are columns. `V` is the type of one row of a
column, that is, of a slice of the column at one position along the bin dim. Columns not depending on the bin dim have a
single value. Names of columns of different kind (coord, mask, attr) are taken to be different keys.
-/
namespace Scipp.Bins
variable {V : Type}

/-- A coord, attr or mask of a buffer: depending on the bin dim or not (`lib/dataset/bins.cpp` 40, `a.dims().contains(dim)`). -/
inductive Col (V : Type) where
  | along (rows : List V)
  | fixed (value : V)

/-- A buffer (`m_buffer`, `lib/variable/include/scipp/variable/bin_array_model.h` 109). -/
structure Table (V : Type) where
  data : List V
  cols : List (Dim × Col V)

/-- A binned variable by content: the array of index pairs, and the buffer (`BinArrayModel`, `bin_array_model.h` 52-110). -/
structure Binned (V : Type) where
  indices : Arr (Int × Int)
  buffer : Table V

/-- All elements of an array in the order of its dims: what is iterated by `values()`, and the memory of a freshly created
variable. -/
def valuesOf {α : Type} (a : Arr α) : List α :=
  (List.range (Dims.volume a.dims).toNat).map (fun k : Nat => a.val (coordsOf a.dims k))

/-- A freshly created variable with given memory (row-major strides). -/
def ofValues {α : Type} [Inhabited α] (dims : Dims) (l : List α) : Arr α :=
  ⟨dims, fun c => l.getD (addrAux dims (rowMajor (Sizes.shape dims)) c).toNat default⟩

/-- Position of the rows of a range in the buffer as accessed by `transform` for one bin; reading or writing outside the buffer is
undefined. -/
def inBuffer (n : Nat) (r : Int × Int) : Bool := decide (r.2 ≤ r.1) || (decide (0 ≤ r.1) && decide (r.2 ≤ n))

/-- Overwrite rows from `b` on. -/
def writeRows (dst : List V) (b : Nat) (rows : List V) : List V :=
  dst.take b ++ rows ++ dst.drop (b + rows.length)

/-- `copy_slices` of a variable (`lib/variable/bins.cpp` 42-47), that is `copy_data` (23-32): an elementwise copy of binned
variables (`transform_in_place`), given the pairs of source and target range of all bins in the order of iteration. Ranges of
different length are an error (`validate_bin_indices`, `lib/core/multi_index.cpp` 40-52; in the code checked for all bins first).
The elementwise iteration within a bin is that of C13. -/
def copyRows (src : List V) : List V → List ((Int × Int) × (Int × Int)) → Except Err (List V)
  | dst, [] => .ok dst
  | dst, (s, d) :: rest =>
    if s.2 - s.1 ≠ d.2 - d.1 then .error .binned
    else if !(inBuffer src.length s && inBuffer dst.length d) then .error .ub
    else copyRows src (writeRows dst d.1.toNat ((src.drop s.1.toNat).take (s.2 - s.1).toNat)) rest

/-- `expect_matching_keys` (`lib/dataset/bins.cpp` 46-61). -/
def matchingKeys (a b : List (Dim × Col V)) : Bool :=
  a.all (fun p => (lookupEntry b p.1).isSome) && b.all (fun p => (lookupEntry a p.1).isSome)

/-- `copy_or_match` (`lib/dataset/bins.cpp` 37-44) for one column. `eqv` is `==` of variables (which is false for NaN, see C54).
If the target does not depend on the bin dim while the source does, the bin dim is not found. -/
def copyOrMatch (eqv : V → V → Bool) (pairs : List ((Int × Int) × (Int × Int))) (cols : List (Dim × Col V)) (p : Dim × Col V) :
    Except Err (List (Dim × Col V)) :=
  match lookupEntry cols p.1 with
  | none => .error .notFound
  | some d => match p.2, d with
    | .along src, .along dst => match copyRows src dst pairs with
      | .error e => .error e
      | .ok rows => .ok (insertEntry cols p.1 (.along rows))
    | .fixed v, .fixed w => if eqv v w then .ok cols else .error .variable
    | .along _, .fixed _ => .error .dimension
    | .fixed _, .along _ => .error .variable

/-- `copy_slices` of a data array or dataset (`lib/dataset/bins.cpp` 82-109) for the given pairs of ranges. -/
def copySlices (eqv : V → V → Bool) (src dst : Table V) (pairs : List ((Int × Int) × (Int × Int))) : Except Err (Table V) := do
  let data ← copyRows src.data dst.data pairs
  if !matchingKeys src.cols dst.cols then throw .runtime
  let cols ← src.cols.foldlM (copyOrMatch eqv pairs) dst.cols
  return ⟨data, cols⟩

/-- The pairs of ranges visited when copying between two binned variables: the source may lack dims of the target
(`transform_in_place`). -/
def rangePairs (src dst : Arr (Int × Int)) : Except Err (List ((Int × Int) × (Int × Int))) :=
  if Sizes.includes dst.dims src.dims then
    .ok ((List.range (Dims.volume dst.dims).toNat).map (fun k : Nat =>
      (src.val (coordsOf dst.dims k), dst.val (coordsOf dst.dims k))))
  else .error .dimension

/-- `copy_or_resize` (`lib/dataset/bins.cpp` 112-124) and `resize_default_init` (129-158; `lib/variable/bins.cpp` 49-58). The new
memory is not initialised, `init` is what it happens to contain. -/
def Col.resize (init : Nat → V) (size : Nat) : Col V → Col V
  | .along _ => .along ((List.range size).map init)
  | .fixed v => .fixed v

@[inherit_doc Col.resize]
def Table.resize (init : Nat → V) (t : Table V) (size : Nat) : Table V :=
  ⟨(List.range size).map init, t.cols.map (fun p => (p.1, p.2.resize init size))⟩

/-- `cumsum` over all elements (`lib/variable/cumulative.cpp` 37-48, see C29). -/
def cumsumFrom : Int → List Int → List Int
  | _, [] => []
  | acc, n :: ns => (acc + n) :: cumsumFrom (acc + n) ns

/-- `size_from_end_index` (`lib/variable/bin_array_variable.cpp` 29-32). -/
def sizeFromEnds (ends : List Int) : Int := (ends.getLast?).getD 0

/-- The layout of bins with given sizes: `end = cumsum(sizes); begin = end - sizes; zip(begin, end)`
(`bin_array_variable.tcc` 80-84, `lib/dataset/bins.cpp` 249-250). -/
def layout (sizes : List Int) : List (Int × Int) :=
  let ends := cumsumFrom 0 sizes
  (List.zipWith (fun e n => e - n) ends sizes).zip ends

/-- `empty_like` of a binned variable (`bin_array_variable.tcc` 68-86), with the sizes of the bins. -/
def emptyLike (init : Nat → V) (buf : Table V) (sizes : Arr Int) : Binned V :=
  let l := layout (valuesOf sizes)
  ⟨ofValues sizes.dims l, buf.resize init (sizeFromEnds (l.map Prod.snd)).toNat⟩

/-- `bin_sizes`: `end - begin` (`lib/variable/bins.cpp` 34-40, `bin_array_variable.tcc` 78-79). -/
def binSizes (idx : Arr (Int × Int)) : Arr Int := ⟨idx.dims, fun c => (idx.val c).2 - (idx.val c).1⟩

/-- `BinArrayModel::copy` (`bin_array_model.h` 142-154), here returning the new content of the target. Alignment flags are not modelled. -/
def copyInto (eqv : V → V → Bool) (src dst : Binned V) : Except Err (Binned V) := do
  let pairs ← rangePairs src.indices dst.indices
  let buffer ← copySlices eqv src.buffer dst.buffer pairs
  return ⟨dst.indices, buffer⟩

/-- `copy` of a binned variable (`lib/variable/operations.cpp` 20-25). -/
def copy (eqv : V → V → Bool) (init : Nat → V) (x : Binned V) : Except Err (Binned V) :=
  copyInto eqv x (emptyLike init x.buffer (binSizes x.indices))

/-- The loop of `contiguous_indices` (`lib/variable/bin_array_variable.cpp` 13-17), which assigns the bins of the output of an
elementwise operation. -/
def contiguousLoop : Int → List (Int × Int) → List (Int × Int)
  | _, [] => []
  | size, r :: rest => (size, r.2 + (size - r.1)) :: contiguousLoop (r.2 + (size - r.1)) rest

/-- `combine` (`lib/dataset/bins.cpp` 240-261), used by `concatenate` (270-277) of two binned variables. -/
def combine (eqv : V → V → Bool) (init : Nat → V) (a b : Binned V) : Except Err (Binned V) := do
  let sizes0 := binSizes a.indices
  let sizes1 := binSizes b.indices
  let sizes ← Arr.zip (fun x y => x + y) sizes0 sizes1
  let l := layout (valuesOf sizes)
  let indices := ofValues sizes.dims l
  let buffer := a.buffer.resize init (sizeFromEnds (l.map Prod.snd)).toNat
  let pairs0 ← rangePairs a.indices ⟨indices.dims, fun c => ((indices.val c).1, (indices.val c).2 - sizes1.val c)⟩
  let buffer ← copySlices eqv a.buffer buffer pairs0
  let pairs1 ← rangePairs b.indices ⟨indices.dims, fun c => ((indices.val c).1 + sizes0.val c, (indices.val c).2)⟩
  let buffer ← copySlices eqv b.buffer buffer pairs1
  return ⟨indices, buffer⟩

/-- A binned variable as it is stored: a view of the memory of the index pairs, the number of index pairs in memory, and the buffer. -/
structure BinnedVar (V : Type) where
  view : View
  memory : List (Int × Int)
  buffer : Table V

/-- Content of a stored binned variable. -/
def BinnedVar.content (x : BinnedVar V) : Binned V :=
  ⟨⟨x.view.dims, fun c => x.memory.getD (x.view.addr c).toNat (0, 0)⟩, x.buffer⟩

/-- `append` (`lib/dataset/bins.cpp` 303-310): `var0.setDataHandle(combine(var0, var1).data_handle())`
(`lib/variable/variable.cpp` 86-90). The model is replaced, dims, strides and offset of `var0` are not. -/
def append (eqv : V → V → Bool) (init : Nat → V) (a : BinnedVar V) (b : Binned V) : Except Err (BinnedVar V) := do
  let r ← combine eqv init a.content b
  let memory := valuesOf r.indices
  if memory.length ≠ a.memory.length then throw .dimension
  return ⟨a.view, memory, r.buffer⟩

end Scipp.Bins
