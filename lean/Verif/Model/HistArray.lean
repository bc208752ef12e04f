import Verif.Model.Histogram
import Verif.Model.RebinVar
import Verif.Model.SizedDict
import Verif.Model.EventMasks
/-
Model of `histogram(DataArray, Variable)` (`lib/dataset/histogram.cpp` 28-89) and of `buckets::histogram` (`lib/dataset/bins.cpp` 322-363) for data with any number of dims and any memory layout, with masks.
The element function is in `Verif.Model.Histogram`, spans and contiguous copies are in `Verif.Model.Subspan`.
Units are labels. Types, their promotion and rounding are not modelled; a weight with variance is a pair. What happens to coords, masks and attrs is not modelled here.
-/
namespace Scipp.Hist
open Sizes
variable {α : Type} [LinearOrder α] {W : Type} [Zero W] [Add W]

/-- A coordinate or the bin edges (a `Variable`). -/
structure Coord (β : Type) where
  x : Var β
  unit : Nat

/-- A histogram (a `Variable`): dims, and the element for every assignment of coordinates. -/
structure Out (W : Type) where
  dims : Dims
  elem : (Dim → Int) → W
  unit : Nat

/-- `is_histogram` (`histogram.cpp` 122-130) for data that has the coord. -/
def isHistogram (dims coord : Dims) (dim : Dim) : Bool :=
  Sizes.contains dims dim && Sizes.contains coord dim && decide ((at? coord dim).toOption = (at? dims dim).toOption.map (· + 1))

/-- The element function `histogram` (`lib/core/include/scipp/core/element/histogram.h` 58-82) on spans. There are as many iterations as events, and `weights[i]` (line 71, 79) is accessed if event `i` is in a bin.
Accessing an element beyond the end of the span of weights is undefined behaviour: this is the case if the surplus events, each with weight 1, give a histogram that is not empty. -/
def histogramSpans (lin : List α → Bool) (guess : List α → α → Int) (edges : List α) (events : List (Option α)) (weights : List W) : Except Err (List W) := do
  let surplus ← histogram lin guess edges ((events.drop weights.length).map fun x => (x, (1 : Nat)))
  if surplus.any (· ≠ 0) then .error .ub
  else histogram lin guess edges (events.zip weights)

/-- One row of the dense case (`histogram.cpp` 63-82): 1-D data with more than 100000 elements is split into bins that are histogrammed separately, with the sum of all of them as the result (lines 63-69,
`bins.cpp` 349-360). -/
def histogramRow (lin : List α → Bool) (guess : List α → α → Int) (split : Bool) (edges : List α) (events : List (Option α)) (weights : List W) : Except Err (List W) :=
  if split then
    histogramParts lin guess edges ((pretendBins weights.length).map fun p => rows (events.zip weights) p.1 p.2) (List.replicate (edges.length - 1) 0)
  else histogramSpans lin guess edges events weights

/-- Applying an operation to all rows, i.e., positions of the dims without the inner one (`transform_subspan`, `lib/variable/include/scipp/variable/transform_subspan.h` 27-51): an exception for any row is
an exception for all. -/
def forRows (dims : Dims) (f : (Dim → Int) → Except Err (List W)) : Except Err Unit :=
  (List.range (Dims.volume dims).toNat).forM fun k => do
    let _ ← f (coordsOf dims k)
    .ok ()

/-- The element with index `i` of a row. -/
def pick (r : Except Err (List W)) (i : Int) : W :=
  match r with
  | .ok l => l.getD i.toNat 0
  | .error _ => 0

/-- `masked_data(array, dim)` (`lib/dataset/operations.cpp` 118-127). -/
def dataMasked (data : Var W) (masks : List (Dim × MaskVar)) (dim : Dim) : Except Err (Var W) := do
  match ← irreducibleMask masks dim with
  | none => .ok data
  | some mask => do
    let x ← whereMask mask 0 (Arr.ofVar data)
    .ok (Rebin.ofArr x)

/-- `var.dims().contains(dim) ? erase(var.dims(), dim) : var.dims()` (`transform_subspan.h` 32-33). -/
def withoutDim (dims : Dims) (dim : Dim) : Except Err Dims := if Sizes.contains dims dim then erase dims dim else .ok dims

/-- `transform_subspan(…, dim, size, subspan_view(coord), subspan_view(data), edges, element::histogram)` (`histogram.cpp` 76-81; `transform_subspan.h` 27-51): the dims of the inputs, which are those of the
spans for the first two, are merged, `dim` is added as inner dim. If an input of spans depends on `dim`, then `subspan_view` is called for it, which fails for spans (`lib/variable/subspan_view.cpp` 60-69; possibly with a `DimensionError`). -/
def histogramDense (lin : List α → Bool) (guess : List α → α → Int) (split : Bool) (dim eventDim : Dim) (coord : Coord (Option α)) (data : Var W) (dataUnit : Nat) (edges : Coord α) :
    Except Err (Out W) := do
  let n ← at? edges.x.view.dims dim
  let (dc, sc) ← subspanView coord.x.view eventDim
  let (dd, sd) ← subspanView data.view eventDim
  let de ← erase edges.x.view.dims dim
  let dc' ← withoutDim dc dim
  let dd' ← withoutDim dd dim
  let m ← Dims.merge dc' dd'
  let m ← Dims.merge m de
  let dims ← Dims.addInner m dim (n - 1)
  if coord.unit ≠ edges.unit then .error .unit
  else if Sizes.contains dc dim || Sizes.contains dd dim then .error .dtype
  else do
    let (_, se) ← subspanView edges.x.view dim
    let f := fun c => histogramRow lin guess split (readSpan edges.x.buf (se c)) (readSpan coord.x.buf (sc c)) (readSpan data.buf (sd c))
    forRows m f
    .ok ({ dims := dims, elem := fun c => pick (f c) (c dim), unit := dataUnit } : Out W)

/-- `histogram(events, binEdges)` for a data array that is not binned (`histogram.cpp` 28-34, 49-89). `coord` is the coord with the name of the inner dim of the edges. -/
def histogramArray (lin : List α → Bool) (guess : List α → α → Int) (data : Var W) (dataUnit : Nat) (masks : List (Dim × MaskVar)) (coord : Coord (Option α)) (edges : Coord α) :
    Except Err (Out W) := do
  let dim := Dims.inner edges.x.view.dims
  let e ← asContiguous edges.x dim
  if isHistogram data.view.dims coord.x.view.dims dim then .error .binEdge
  else do
    let eventDim := SizedDict.dimOf ⟨data.view.dims, [], false⟩ dim ⟨coord.x.view, 0, true, false⟩
    let x ← dataMasked data masks eventDim
    let w ← asContiguous x eventDim
    let c ← asContiguous coord.x eventDim
    histogramDense lin guess (decide (x.view.dims.length = 1 ∧ Dims.volume x.view.dims > 100000)) dim eventDim { coord with x := c } w dataUnit { edges with x := e }

/-- Binned data with masks of bins: bin indices, the dim of the events, and the data, masks and coord of the buffer (`constituents<DataArray>`, `lib/variable/include/scipp/variable/bin_array_model.h` 52-110). -/
structure Binned (α W : Type) where
  indices : Arr (Int × Int)
  dim : Dim
  data : Var W
  masks : List (Dim × MaskVar)
  coord : Coord (Option α)
  unit : Nat

/-- `hide_masked` for one dim (`lib/dataset/bins_util.h` 14-28): masked bins become empty. -/
def hideMasked (indices : Arr (Int × Int)) (masks : List (Dim × MaskVar)) (dim : Dim) : Except Err (Arr (Int × Int)) := do
  match ← irreducibleMask masks dim with
  | none => .ok indices
  | some mask => do
    let common ← Dims.intersection indices.dims mask.arr.dims
    let arr ← mask.arr.transpose (labels common)
    whereMask { mask with arr } (0, 0) indices

/-- `subspan_view(var, dim, indices)` (`lib/variable/subspan_view.cpp` 38-47, 60-69, 18-34) for a buffer. -/
def bufferSpan (v : View) (dim : Dim) : Except Err (Int × Int → Int × Int) := do
  let s ← v.stride dim
  if s ≠ 1 then .error .dimension
  else .ok (fun p => (v.offset + s * p.1, v.offset + s * p.2))

/-- `buckets::histogram` (`lib/dataset/bins.cpp` 322-363). Without a dim with the name of the inner dim of the edges there is one histogram per bin. Otherwise there is one for all bins along that dim:
the dim is renamed, every bin is histogrammed, and the results are summed (346, 354-360). If this intermediate result would be too large the bins are concatenated first (339-345): this copies the events, see
C48. A single bin that results is histogrammed like an array that is not binned (341-342), in parts if it is large. Renaming the dim and then summing over it leaves the other dims. -/
def histogramBuckets (lin : List α → Bool) (guess : List α → α → Int) (b : Binned α W) (edges : Coord α) : Except Err (Out W) := do
  let dim := Dims.inner edges.x.view.dims
  let n ← at? edges.x.view.dims dim
  let masked ← dataMasked b.data b.masks b.dim
  let sc ← bufferSpan b.coord.x.view b.dim
  let sd ← bufferSpan masked.view b.dim
  let de ← erase edges.x.view.dims dim
  let along := Sizes.contains b.indices.dims dim
  let di ← withoutDim b.indices.dims dim
  let m ← Dims.merge di de
  let dims ← Dims.addInner m dim (n - 1)
  if b.coord.unit ≠ edges.unit then .error .unit
  else do
    let (_, se) ← subspanView edges.x.view dim
    let size := (at? b.indices.dims dim).toOption.getD 0
    let events := fun c => (readSpan b.coord.x.buf (sc (b.indices.val c))).zip (readSpan masked.buf (sd (b.indices.val c)))
    let f := fun c =>
      let x := readSpan edges.x.buf (se c)
      if along then
        let parts := (intRange 0 size).map fun j => events (upd c dim j)
        if Dims.volume b.indices.dims * (n - 1) > 100000000 then
          histogramRow lin guess (di.isEmpty && decide (parts.flatten.length > 100000)) x (parts.flatten.map Prod.fst) (parts.flatten.map Prod.snd)
        else histogramParts lin guess x parts (List.replicate (x.length - 1) 0)
      else histogram lin guess x (events c)
    forRows m f
    .ok ({ dims := dims, elem := fun c => pick (f c) (c dim), unit := b.unit } : Out W)

/-- `histogram(events, binEdges)` for binned data (`histogram.cpp` 28-48): bins masked along the dim of the edges are left out. -/
def histogramBinned (lin : List α → Bool) (guess : List α → α → Int) (b : Binned α W) (masks : List (Dim × MaskVar)) (edges : Coord α) : Except Err (Out W) := do
  let dim := Dims.inner edges.x.view.dims
  let e ← asContiguous edges.x dim
  let indices ← hideMasked b.indices masks dim
  histogramBuckets lin guess { b with indices := indices } { edges with x := e }

end Scipp.Hist
