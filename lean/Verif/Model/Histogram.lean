import Verif.Model.BinIndex
import Mathlib.Algebra.Group.Defs
/-
Model of histogramming (`lib/core/include/scipp/core/element/histogram.h`, `lib/dataset/histogram.cpp`,
`lib/dataset/bins.cpp`), of splitting a table for threading (`lib/dataset/bins.cpp`) and of functions looking up values by
coordinate (`lib/core/include/scipp/core/element/event_operations.h`).

Weights are elements of a type with addition (and zero), such as numbers, or pairs of value and variance. Rounding is not modelled.
-/
namespace Scipp
variable {α : Type} [LinearOrder α]

section Histogram
variable {W : Type} [Zero W] [Add W]

/-- `iadd` (`histogram.h` 20-30): `data[bin] += w`. -/
def iadd (data : List W) (bin : Int) (w : W) : Except Err (List W) :=
  match vecGet data bin with
  | none => .error .ub
  | some d =>
    match vecSet data bin (d + w) with
    | none => .error .ub
    | some data => .ok data

/-- Loop over the events for linear bins (`histogram.h` 66-72). -/
def histLinLoop (edges : List α) (guess : α → Int) : List (Option α × W) → List W → Except Err (List W)
  | [], data => .ok data
  | (x, w) :: events, data =>
    match getBin x edges guess with
    | .error e => .error e
    | .ok bin =>
      if bin ≥ 0 then
        match iadd data bin w with
        | .error e => .error e
        | .ok data => histLinLoop edges guess events data
      else histLinLoop edges guess events data

/-- Loop over the events for other bins (`histogram.h` 75-80). -/
def histSortedLoop (edges : List α) : List (Option α × W) → List W → Except Err (List W)
  | [], data => .ok data
  | (x, w) :: events, data =>
    let it := upperBound edges x
    if it ≠ edges.length ∧ it ≠ 0 then
      match iadd data ((it : Int) - 1) w with
      | .error e => .error e
      | .ok data => histSortedLoop edges events data
    else histSortedLoop edges events data

/-- `std::is_sorted` as used in `sorted_edges` (`lib/core/include/scipp/core/histogram.h` 24-27). -/
def isSorted : List α → Bool
  | a :: b :: rest => decide (a ≤ b) && isSorted (b :: rest)
  | _ => true

/-- The element function `histogram` (`histogram.h` 58-82). `lin` is `numeric::islinspace(edges)`, `guess` the conversion of
the scaled coordinate to an integer, see `getBin`. The data has one element less than there are edges
(`lib/dataset/histogram.cpp` 77, `lib/dataset/bins.cpp` 332). -/
def histogram (lin : List α → Bool) (guess : List α → α → Int) (edges : List α) (events : List (Option α × W)) :
    Except Err (List W) :=
  let data : List W := List.replicate (edges.length - 1) 0
  if lin edges then histLinLoop edges (guess edges) events data
  else if isSorted edges then histSortedLoop edges events data
  else .error .binEdge

/-- Number of parts of a table (`pretend_bins_for_threading`, `lib/dataset/bins.cpp` 222-225). -/
def nthread (size : Int) : Int :=
  if size > 10000000 then 24 else if size > 1000000 then 4 else if size > 100000 then 2 else 1

/-- `make_range` (`lib/dataset/bin_detail.cpp` 25-29): exclusive cumulative sum of `(end - begin) / stride` copies of the
stride. -/
def makeRange (b e stride : Int) : List Int := (List.range ((e - b).tdiv stride).toNat).map fun i : Nat => i * stride

/-- `pretend_bins_for_threading` (`lib/dataset/bins.cpp` 219-233): the begin and end of the ranges into which `n` rows are
split. -/
def pretendBins (n : Int) : List (Int × Int) :=
  let size := max 1 n
  let stride := max 1 (size.tdiv (nthread size))
  let begin' := makeRange 0 size stride
  let end' := begin'.map (· + stride)
  -- `end.values().back() = da.dims()[dim]`
  let end' := end'.set (end'.length - 1) n
  begin'.zip end'

/-- The rows `[b, e)` of a table. -/
def rows {β : Type} (table : List β) (b e : Int) : List β := (table.take e.toNat).drop b.toNat

/-- Element-wise addition of histograms, for the `sum` of `lib/dataset/bins.cpp` 359-360. -/
def addHist (a b : List W) : List W := List.zipWith (· + ·) a b

/-- Histogram of every part, then the sum over the parts starting from zeros (`lib/dataset/bins.cpp` 349-360). -/
def histogramParts (lin : List α → Bool) (guess : List α → α → Int) (edges : List α) :
    List (List (Option α × W)) → List W → Except Err (List W)
  | [], acc => .ok acc
  | part :: parts, acc =>
    match histogram lin guess edges part with
    | .error e => .error e
    | .ok h => histogramParts lin guess edges parts (addHist acc h)

/-- `histogram` of a 1-D table of events (`lib/dataset/histogram.cpp` 50-84), split for threading if there are more than 100000
rows (lines 63-69). `mask` is the combination of the masks of the rows; masked rows get weight zero (`masked_data`,
`lib/dataset/operations.cpp` 118-127). -/
def histogramTable (lin : List α → Bool) (guess : List α → α → Int) (edges : List α)
    (table : List (Option α × W × Bool)) : Except Err (List W) :=
  let events := table.map fun r => (r.1, if r.2.2 then 0 else r.2.1)
  if table.length > 100000 then
    histogramParts lin guess edges ((pretendBins table.length).map fun p => rows events p.1 p.2)
      (List.replicate (edges.length - 1) 0)
  else histogram lin guess edges events

end Histogram

section Lookup
variable {W : Type}

/-- `masked_data(function, dim, fill)` (`lib/dataset/operations.cpp` 118-127): masked values are replaced by the fill value. -/
def maskedData (mask : List Bool) (data : List W) (fill : W) : List W :=
  List.zipWith (fun m d => if m then fill else d) mask data

/-- `get(weights, bin)`, access outside is `Err.ub` (`event_operations.h` 92). -/
def getWeight (weights : List W) (bin : Int) : Except Err W :=
  match vecGet weights bin with
  | none => .error .ub
  | some w => .ok w

/-- `map_linspace` (`event_operations.h` 87-93). -/
def mapLinspace (edges : List α) (guess : α → Int) (weights : List W) (fill : W) (coord : Option α) : Except Err W :=
  match getBin coord edges guess with
  | .error e => .error e
  | .ok bin => if bin < 0 then .ok fill else getWeight weights bin

/-- `map_sorted_edges` (`event_operations.h` 95-102). -/
def mapSortedEdges (edges : List α) (weights : List W) (fill : W) (coord : Option α) : Except Err W :=
  let it := upperBound edges coord
  if it = edges.length ∨ it = 0 then .ok fill else getWeight weights ((it : Int) - 1)

/-- `lookup_previous` (`event_operations.h` 104-109). -/
def lookupPreviousElem (x : List α) (weights : List W) (fill : W) (point : Option α) : Except Err W :=
  let it := upperBound x point
  if it = 0 then .ok fill else getWeight weights ((it : Int) - 1)

/-- `buckets::map` (`lib/dataset/bins.cpp` 365-385) for a 1-D function and one event. -/
def mapFunction (lin : List α → Bool) (guess : List α → α → Int) (edges : List α) (mask : List Bool) (values : List W)
    (fill : W) (coord : Option α) : Except Err W :=
  if edges.length ≠ values.length + 1 then .error .binEdge
  else
    let weights := maskedData mask values fill
    if lin edges then mapLinspace edges (guess edges) weights fill coord
    else if isSorted edges then mapSortedEdges edges weights fill coord
    else .error .binEdge

/-- `lookup_previous` (`lib/dataset/bins.cpp` 203-217) for a 1-D function and one point. -/
def lookupPrevious (x : List α) (mask : List Bool) (values : List W) (fill : W) (point : Option α) : Except Err W :=
  let weights := maskedData mask values fill
  if isSorted x then lookupPreviousElem x weights fill point
  else .error .dataArray

/-- `buckets::scale` (`lib/dataset/bins.cpp` 387-410, `event_operations.h` 139-157) for a 1-D histogram and one event with value
`data`; masked bins of the histogram count as zero. -/
def scaleEvent [Zero W] [Mul W] (lin : List α → Bool) (guess : List α → α → Int) (edges : List α) (mask : List Bool)
    (values : List W) (coord : Option α) (data : W) : Except Err W :=
  let weights := maskedData mask values 0
  if lin edges then
    match getBin coord edges (guess edges) with
    | .error e => .error e
    | .ok bin =>
      if bin < 0 then .ok (data * 0)
      else match getWeight weights bin with
        | .error e => .error e
        | .ok w => .ok (data * w)
  else if isSorted edges then
    let it := upperBound edges coord
    if it = edges.length ∨ it = 0 then .ok (data * 0)
    else match getWeight weights ((it : Int) - 1) with
      | .error e => .error e
      | .ok w => .ok (data * w)
  else .error .binEdge

end Lookup
end Scipp
