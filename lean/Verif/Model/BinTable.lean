import Verif.Model.MultiAxis
import Verif.Model.Binning
import Verif.Model.Histogram
/-
`bin` as a whole, as far as events are concerned (`lib/dataset/bin.cpp` 42-49, 190-230, 305-392, 622-678): the index of the output bin is computed for every event, the events are
moved to the output buffer in one or two stages, and the ranges of the output bins are computed from their sizes. The search for relevant output bins (`build` in
`Verif.Model.MultiAxis`) is left out here: offset 0 and all output bins are considered for every input bin.
-/
namespace Scipp.BinTable
open Binning
variable {α : Type} [LinearOrder α] {γ : Type} [DecidableEq γ] {E : Type}

/-- A dimension of the output and how events are assigned to it: an element of `m_actions` with the coord for it (`bin.cpp` 296, 305-392, 442). `E` is a row of the event table together with
what is known of its input bin: a coord of the input bins (`get_coord`, 308-310) and the position of the input bin along an existing dimension. -/
inductive Axis (α γ E : Type) where
  | bin (edges : List α) (linspace : Bool) (guess : α → Int) (coord : E → Option α)
  | group (labels : List γ) (coord : E → γ)
  | groupInt (labels : List Int) (coord : E → Int)
  | existing (n : Nat) (position : E → Nat)

/-- The action for one event (`bin.cpp` 313-390). -/
def Axis.action (e : E) : Axis α γ E → AxisAction α γ
  | .bin edges linspace guess coord => .bin edges linspace guess (coord e)
  | .group labels coord => .group labels (coord e)
  | .groupInt labels coord => .groupInt labels (coord e)
  | .existing n position => .existing n (position e)

/-- The extent of the dimension in `m_dims` (`bin.cpp` 414-429). -/
def Axis.size : Axis α γ E → Nat
  | .bin edges _ _ _ => edges.length - 1
  | .group labels _ => labels.length
  | .groupInt labels _ => labels.length
  | .existing n _ => n

/-- `dims().volume()` of the builder (`bin.cpp` 298, 312). -/
def volume (axes : List (Axis α γ E)) : Nat := (axes.map Axis.size).prod

/-- The indices of the output bins for the events of an input bin (`TargetBinBuilder::build`, `bin.cpp` 305-392, without the search for relevant output bins). -/
def target (axes : List (Axis α γ E)) (e : E) : Except Err (Int × E) :=
  match runActions (axes.map (Axis.action e)) 0 with
  | .ok i => .ok (i, e)
  | .error err => .error err

/-- An input bin with the indices (`bin.cpp` 311-312: offset 0, all output bins). -/
def inputBin (axes : List (Axis α γ E)) (events : List E) : Except Err (InputBin E) :=
  match events.mapM (target axes) with
  | .ok es => .ok ⟨0, volume axes, es⟩
  | .error err => .error err

/-- `make_mapper` (`bin.cpp` 42-49, 190-230) in the case of offset 0 and all output bins being considered. `root` is the rounded down square root in double precision (200-201). -/
def mapper {n : Nat} (root : Nat → Nat) (length : Nat) (spans : List (Rows (InputBin E) n)) (order : Mapped (Int × E) → List (Int × (Int × E))) : Except Err (Mapped E) :=
  if 16 * 1024 < length then twoStage length (root length) spans order else singleStage length spans

/-- The contents of the output bins (`bin.cpp` 34-40, 622-631). -/
def contents (mapper : Except Err (Mapped E)) (order : Mapped E → List (Int × E)) : Except Err (List (List E)) :=
  match mapper with
  | .error err => .error err
  | .ok m =>
    match buffer m (order m) with
    | .error err => .error err
    | .ok buf =>
      match readBins buf (binsFromSizes 0 m.sizes) with
      | none => .error .ub
      | some bins => .ok bins

/-- `bin` of binned data (`bin.cpp` 666-678, `bins_from_sizes` 34-40): the contents of the output bins. `spans` lists the positions of the dimensions that are not rebinned, with the input bins
of each. `order1` and `order` are the orders of the writes of the threads in the first stage of two and in the last stage. -/
def binData {n : Nat} (root : Nat → Nat) (axes : List (Axis α γ E)) (spans : List (Rows (List E) n)) (order1 : Mapped (Int × E) → List (Int × (Int × E)))
    (order : Mapped E → List (Int × E)) : Except Err (List (List E)) :=
  match spans.mapM (Rows.mapM (inputBin axes)) with
  | .error err => .error err
  | .ok spans => contents (mapper root (volume axes) spans order1) order

/-- `bin` of a table (`bin.cpp` 633-650): the table is split into parts for threading. -/
def binTable (root : Nat → Nat) (axes : List (Axis α γ E)) (table : List E) (order1 : Mapped (Int × E) → List (Int × (Int × E)))
    (order : Mapped E → List (Int × E)) : Except Err (List (List E)) :=
  let parts : Rows (List E) 1 := (pretendBins table.length).map fun p => rows table p.1 p.2
  binData (n := 1) root axes [parts] order1 order

/-- What `build` does for the events of the input bin at `position` of a dimension that is binned again and comes first, with the bin edges `binCoord` of the input (`bin.cpp` 349-377): the first considered output
bin and their number follow from the edges of the input bin, the index of the events is relative to the first one. The other actions leave both alone, since `m_offsets` has a dimension then (350, 388). -/
def rebinInputBin (guess' : List α → α → Int) (edges : List α) (linspace : Bool) (guess : α → Int) (coord : E → Option α) (post : List (Axis α γ E)) (binCoord : List α) (position : Nat)
    (events : List E) : Except Err (InputBin E) :=
  match relevantBins edges binCoord position with
  | none => .error .ub
  | some (b, e) =>
    let inner := ((((edges.length : Int) - 1) * (volume post : Int))).tdiv ((edges.length : Int) - 1)
    match events.mapM fun ev => (build guess' (⟨.bin edges linspace guess (coord ev), some (b, e, false)⟩ :: post.map fun a => ⟨a.action ev, none⟩)).map fun s => (s.index, ev) with
    | .ok es => .ok ⟨b * inner, (e - b - 1) * inner, es⟩
    | .error err => .error err

/-- `bin` along a dimension that the input has, with bin edges as coord, and further axes after it (`bin.cpp` 666-678). The dimension is the only one that is rebinned. There is one stage since `m_offsets` and
`m_nbin` have a dimension (42-49). -/
def rebinData (guess' : List α → α → Int) (edges : List α) (linspace : Bool) (guess : α → Int) (coord : E → Option α) (post : List (Axis α γ E)) (binCoord : List α) (spans : List (List (List E)))
    (order : Mapped E → List (Int × E)) : Except Err (List (List E)) :=
  match spans.mapM fun s => s.zipIdx.mapM fun p => rebinInputBin guess' edges linspace guess coord post binCoord p.2 p.1 with
  | .error err => .error err
  | .ok spans => contents (singleStage (n := 1) ((edges.length - 1) * volume post) spans) order

end Scipp.BinTable
