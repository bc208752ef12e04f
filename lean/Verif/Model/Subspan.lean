import Verif.Model.View
import Verif.Model.Cumulative
import Verif.Model.Extract
/-
Model of `lib/variable/subspan_view.cpp`, of `as_contiguous`, `issorted` and `allsorted` (`lib/variable/util.cpp`) and of `sort(Variable, Dim, SortOrder)` (`lib/variable/sort.cpp`).
A variable that is only an intermediate result is given by its dims and a function from coordinates to elements.
-/
namespace Scipp

/-- `Variable::stride(Dim)` (`lib/variable/variable.cpp` 175-177). -/
def View.stride (v : View) (d : Dim) : Except Err Int := do
  let i ← Sizes.index v.dims d
  .ok (v.strides.getD i 0)

/-- `make_range` (`subspan_view.cpp` 71-75): exclusive cumulative sum of a constant. -/
def spanRange (num stride : Int) : Nat → Int := cumsumDim .exclusive 1 num.toNat 1 fun _ => stride

/-- The loop in `make_indices` (`subspan_view.cpp` 81-84); the sums broadcast. -/
def spanStart (v : View) (dims : Dims) : Except Err ((Dim → Int) → Int) :=
  dims.foldlM (fun start p => do
    let s ← v.stride p.1
    .ok (fun c => start c + spanRange p.2 s (c p.1).toNat)) (fun _ => 0)

/-- `make_indices` (`subspan_view.cpp` 77-86): dims and, for each position, begin and end of the span, relative to the first element of the variable. -/
def makeIndices (v : View) (dim : Dim) : Except Err (Dims × ((Dim → Int) → Int × Int)) := do
  let dims ← Sizes.erase v.dims dim
  let start ← spanStart v dims
  let n ← Sizes.at? v.dims dim
  .ok (dims, fun c => (start c, start c + n))

/-- `subspan_view(var, dim)` (`subspan_view.cpp` 91-97, 60-69, 38-47, 18-34): the spans as ranges of addresses; `values<T>().data()` is the buffer plus the offset of the variable. -/
def subspanView (v : View) (dim : Dim) : Except Err (Dims × ((Dim → Int) → Int × Int)) := do
  let (dims, idx) ← makeIndices v dim
  let s ← v.stride dim
  if s ≠ 1 then .error .dimension
  else .ok (dims, fun c => (v.offset + s * (idx c).1, v.offset + s * (idx c).2))

/-- The elements a span refers to (`scipp::span`, `lib/common/include/scipp/common/span.h`). -/
def readSpan {α : Type} (buf : Int → α) (s : Int × Int) : List α := (List.range (s.2 - s.1).toNat).map fun (i : Nat) => buf (s.1 + i)

/-- Assignment of the elements of a span (`scipp::span`). -/
def writeSpan {α : Type} (buf : Int → α) (s : Int × Int) (vals : List α) : Int → α := fun a =>
  if s.1 ≤ a ∧ a < s.2 then vals.getD (a - s.1).toNat (buf a) else buf a

/-- `as_contiguous` (`lib/variable/util.cpp` 116-123). -/
def asContiguous {α : Type} (x : Var α) (dim : Dim) : Except Err (Var α) := do
  let s ← x.view.stride dim
  if s = 1 then .ok x
  else do
    let dims ← Sizes.erase x.view.dims dim
    let n ← Sizes.at? x.view.dims dim
    let dims ← Dims.addInner dims dim n
    let v ← x.view.transpose (Sizes.labels dims)
    .ok (Var.copy ⟨v, x.buf⟩)

/-- The comparison handed to `std::sort` (`lib/core/include/scipp/core/element/sort.h` 48-49 with `less` and `greater` of `element/comparison.h`). -/
def spanLess {α : Type} (less : α → α → Bool) : Bins.SortOrder → α → α → Bool
  | .ascending => less
  | .descending => fun a b => less b a

/-- `sort(var, dim, order)` (`lib/variable/sort.cpp` 14-23) with the element operation `make_sort` (`element/sort.h` 20-46). `sorter` is `std::sort`. With variances the elements are the pairs
of value and variance, compared by value. The rows are visited in row-major order. -/
def sortDim {α : Type} (sorter : (α → α → Bool) → List α → List α) (less : α → α → Bool) (x : Var α) (dim : Dim) (order : Bins.SortOrder) : Except Err (Var α) := do
  let out := x.copy
  let (dims, spans) ← subspanView out.view dim
  let buf := (List.range (Dims.volume dims).toNat).foldl
    (fun buf (k : Nat) => writeSpan buf (spans (coordsOf dims k)) (sorter (spanLess less order) (readSpan buf (spans (coordsOf dims k))))) out.buf
  .ok ⟨out.view, buf⟩

/-- The element operation chosen by `issorted` (`lib/variable/util.cpp` 67-75). -/
def sortedOp {α : Type} (le ge : α → α → Bool) : Bins.SortOrder → α → α → Bool
  | .ascending => le
  | .descending => ge

/-- `issorted(x, dim, order)` (`lib/variable/util.cpp` 59-77): `out && (left <= right)` (`element/util.h` 84-92) for all pairs of neighbours, in the order of the elements along `dim`
(accumulation along a dim is the subject of C57). `le` is `<=`, `ge` is `>=` of the element type. -/
def issorted {α : Type} (le ge : α → α → Bool) (x : Var α) (dim : Dim) (order : Bins.SortOrder) : Except Err (Dims × ((Dim → Int) → Bool)) := do
  let dims ← Sizes.erase x.view.dims dim
  let size ← Sizes.at? x.view.dims dim
  if size < 2 then .ok (dims, fun _ => true)
  else do
    let left ← x.view.slice ⟨dim, 0, size - 1, 1⟩
    let right ← x.view.slice ⟨dim, 1, size, 1⟩
    .ok (dims, fun c => (List.range (size - 1).toNat).foldl
      (fun (out : Bool) (i : Nat) => out && sortedOp le ge order (x.buf (left.addr fun e => if e = dim then i else c e)) (x.buf (right.addr fun e => if e = dim then i else c e))) true)

/-- `allsorted` (`lib/variable/util.cpp` 83-85): `all` over the positions of the other dims. -/
def allsorted {α : Type} (le ge : α → α → Bool) (x : Var α) (dim : Dim) (order : Bins.SortOrder) : Except Err Bool := do
  let (dims, out) ← issorted le ge x dim order
  .ok ((List.range (Dims.volume dims).toNat).all fun (k : Nat) => out (coordsOf dims k))

end Scipp
