import Verif.Model.Arr
import Verif.Model.Unit
import Mathlib.Data.Rat.Floor
/-
Model of `lib/dataset/counts.cpp`: conversion between counts and count densities. Numbers are rational numbers. Masks, coords other than
those named, variances and binned data are not modelled. The in-place division and multiplication are those of `C34` (all checks before
any change) and `C12` (element by element); here they are given by what they do.
-/
namespace Scipp.Counts

variable {n : Nat}

/-- A variable: unit, whether its elements are floating-point numbers, elements. -/
structure CVar (n : Nat) where
  unit : MUnit n
  floating : Bool
  arr : Arr ℚ

/-- `units::counts` (`lib/units/unit.cpp`), `k` is the base unit for counts. -/
def counts (k : Fin n) : MUnit n := some ⟨1, fun i => if i = k then 1 else 0⟩

/-- `Unit::isCounts` (`unit.cpp` 63). -/
def isCounts (k : Fin n) (u : MUnit n) : Bool := decide (u = counts k)

/-- `Unit::isCountDensity` (`unit.cpp` 65-67). -/
def isCountDensity (k : Fin n) (u : MUnit n) : Bool :=
  match u with
  | none => false
  | some p => !isCounts k (some p) && decide (p.exps k ≠ 0)

/-- The coords of the input, by name (`Coords`, see `Verif.Model.SizedDict`). -/
abbrev Coords (n : Nat) := Dim → Option (CVar n)

/-- The width of the bins of one coord (`counts.cpp` 19-24): the difference of two slices of the coord. The slice from 1 is an error if the
coord has no elements. -/
def binWidth (coord : CVar n) (dim : Dim) : Except Err (CVar n) :=
  if coord.unit = MUnit.one then .error .runtime
  else
    match Sizes.at? coord.arr.dims dim with
    | .error e => .error e
    | .ok len =>
      if len < 1 then .error .slice
      else
        match Sizes.resize coord.arr.dims dim (len - 1) with
        | .error e => .error e
        | .ok dims =>
          .ok ⟨coord.unit, coord.floating, dims, fun c => coord.arr.val (fun d => if d = dim then c d + 1 else c d) - coord.arr.val c⟩

/-- `getBinWidths` (`counts.cpp` 15-27). -/
def getBinWidths (coords : Coords n) : List Dim → Except Err (List (CVar n))
  | [] => .ok []
  | d :: ds =>
    match coords d with
    | none => .error .notFound
    | some coord =>
      match binWidth coord d with
      | .error e => .error e
      | .ok w =>
        match getBinWidths coords ds with
        | .error e => .error e
        | .ok ws => .ok (w :: ws)

/-- `data /= binWidth` (`lib/core/include/scipp/core/element/arithmetic.h` 53-60, 70-71: no in-place division of integers). -/
def divideBy (r : ExpRange n) (x w : CVar n) : Except Err (CVar n) :=
  if x.floating = false then .error .dtype
  else if Sizes.includes x.arr.dims w.arr.dims = false then .error .dimension
  else
    match MUnit.div r x.unit w.unit with
    | .error e => .error e
    | .ok u => .ok ⟨u, x.floating, x.arr.dims, fun c => x.arr.val c / w.arr.val c⟩

/-- `data *= binWidth` (`element/arithmetic.h` 43-50, 68-69): integers cannot be multiplied in place by floating-point numbers. -/
def multiplyBy (r : ExpRange n) (x w : CVar n) : Except Err (CVar n) :=
  if x.floating = false ∧ w.floating = true then .error .dtype
  else if Sizes.includes x.arr.dims w.arr.dims = false then .error .dimension
  else
    match MUnit.mul r x.unit w.unit with
    | .error e => .error e
    | .ok u => .ok ⟨u, x.floating, x.arr.dims, fun c => x.arr.val c * w.arr.val c⟩

/-- The loop over the bin widths (`counts.cpp` 31-32, 74-75). An operation that fails leaves the result of the operations before it. -/
def applyAll (op : CVar n → CVar n → Except Err (CVar n)) : List (CVar n) → CVar n → CVar n × Except Err Unit
  | [], x => (x, .ok ())
  | w :: ws, x =>
    match op x w with
    | .error e => (x, .error e)
    | .ok y => applyAll op ws y

/-- `toDensity(DataArray &, …)` (`counts.cpp` 29-46): the new content of the data, and the outcome. -/
def toDensity (r : ExpRange n) (k : Fin n) (ws : List (CVar n)) (x : CVar n) : CVar n × Except Err Unit :=
  if isCounts k x.unit then applyAll (divideBy r) ws x
  else if isCountDensity k x.unit then (x, .error .runtime)
  else (x, .ok ())

/-- `fromDensity(DataArray &, …)` (`counts.cpp` 70-77). -/
def fromDensity (r : ExpRange n) (k : Fin n) (ws : List (CVar n)) (x : CVar n) : CVar n × Except Err Unit :=
  if isCounts k x.unit then (x, .ok ())
  else if isCountDensity k x.unit then applyAll (multiplyBy r) ws x
  else (x, .ok ())

/-- A conversion of a copy of a data array (`counts.cpp` 63-68, 94-99). -/
def onCopy (f : List (CVar n) → CVar n → CVar n × Except Err Unit) (coords : Coords n) (dims : List Dim) (x : CVar n) : Except Err (CVar n) :=
  match getBinWidths coords dims with
  | .error e => .error e
  | .ok ws =>
    match f ws x with
    | (_, .error e) => .error e
    | (y, .ok ()) => .ok y

/-- `toDensity(const DataArray &, dims)`. -/
def arrayToDensity (r : ExpRange n) (k : Fin n) := onCopy (toDensity r k)

/-- `fromDensity(const DataArray &, dims)`. -/
def arrayFromDensity (r : ExpRange n) (k : Fin n) := onCopy (fromDensity r k)

/-- The loop over the items of a dataset (`counts.cpp` 54-55, 85-86). The iterator yields data arrays that share their data with the
dataset (`lib/dataset/include/scipp/dataset/dataset.h` 140-142), so the data of the input changes. `σ` holds the buffers, `items` the
buffer of every item. -/
def onItems (f : CVar n → CVar n × Except Err Unit) : List Nat → (Nat → CVar n) → (Nat → CVar n) × Except Err Unit
  | [], σ => (σ, .ok ())
  | i :: is, σ =>
    match f (σ i) with
    | (y, .error e) => (fun j => if j = i then y else σ j, .error e)
    | (y, .ok ()) => onItems f is fun j => if j = i then y else σ j

/-- The conversion of a dataset (`counts.cpp` 52-57, 83-88). The dataset returned has the same items as the input. -/
def onDataset (f : List (CVar n) → CVar n → CVar n × Except Err Unit) (coords : Coords n) (dims : List Dim) (items : List Nat)
    (σ : Nat → CVar n) : (Nat → CVar n) × Except Err Unit :=
  match getBinWidths coords dims with
  | .error e => (σ, .error e)
  | .ok ws => onItems (f ws) items σ

/-- `toDensity(const Dataset &, dims)`. -/
def datasetToDensity (r : ExpRange n) (k : Fin n) := onDataset (toDensity r k)

/-- `fromDensity(const Dataset &, dims)`. -/
def datasetFromDensity (r : ExpRange n) (k : Fin n) := onDataset (fromDensity r k)

end Scipp.Counts
