import Verif.Model.BinIndex
import Verif.Model.Numeric
import Mathlib.Algebra.BigOperators.Group.List.Basic
/-
Model of how the index of the output bin of an event is built up over several axes
(`lib/dataset/bin_detail.cpp` 31-110, `lib/dataset/bin.cpp` 305-354).
-/
namespace Scipp
variable {α : Type} [LinearOrder α] {γ : Type} [DecidableEq γ]

/-- `update_indices_by_grouping` for labels that are not integers, or not consecutive (`lib/dataset/bin_detail.cpp` 96-101). -/
def updateByMap (labels : List γ) (x : γ) (index : Int) : Except Err Int :=
  match groupsToMap labels with
  | .error e => .error e
  | .ok m => .ok (updateGroup m x index)

/-- `update_indices_by_grouping` for integer labels (`lib/dataset/bin_detail.cpp` 73-102). -/
def updateByGroupingInt (labels : List Int) (x index : Int) : Except Err Int :=
  if labels ≠ [] ∧ Numeric.isarange labels then
    .ok (updateGroupContiguous labels.length (labels.headD 0) x index)
  else updateByMap labels x index

/-- An action along one axis together with the coordinate of the event for that axis
(`TargetBinBuilder::build`, `lib/dataset/bin.cpp` 305-354). -/
inductive AxisAction (α γ : Type) where
  /-- binning; `linspace` is the outcome of `all(islinspace(edges))`, `guess` see `getBin` -/
  | bin (edges : List α) (linspace : Bool) (guess : α → Int) (x : Option α)
  /-- grouping by labels that are not integers -/
  | group (labels : List γ) (x : γ)
  /-- grouping by integers -/
  | groupInt (labels : List Int) (x : Int)
  /-- existing outer dimension: position of the input bin the event is in -/
  | existing (nbin position : Int)

/-- The update of the index by an action. -/
def AxisAction.update (a : AxisAction α γ) (index : Int) : Except Err Int :=
  match a with
  | .bin edges linspace guess x =>
    if linspace then updateBinLinspace edges guess x index else .ok (updateBinSorted edges x index)
  | .group labels x => updateByMap labels x index
  | .groupInt labels x => updateByGroupingInt labels x index
  | .existing nbin position => .ok (updateExisting position nbin index)

/-- The actions in sequence. `indices` starts as zero (`lib/dataset/bin.cpp` 649, 669). -/
def runActions : List (AxisAction α γ) → Int → Except Err Int
  | [], index => .ok index
  | a :: rest, index =>
    match a.update index with
    | .error e => .error e
    | .ok index => runActions rest index

/-- Number of output bins along the axis of an action (`lib/dataset/bin.cpp` 416-430). -/
def AxisAction.extent : AxisAction α γ → Int
  | .bin edges _ _ _ => (edges.length : Int) - 1
  | .group labels _ => labels.length
  | .groupInt labels _ => labels.length
  | .existing nbin _ => nbin

/-- `masked_key`: the edges `[b, e)` (`lib/dataset/bin.cpp` 373-375). -/
def subEdges (edges : List α) (b e : Int) : List α := (edges.take e.toNat).drop b.toNat

/-- State of `TargetBinBuilder::build` (`lib/dataset/bin.cpp` 305-354) for the events of one input bin: the index of an event,
`m_offsets` and `m_nbin` for the input bin, and whether `m_offsets` depends on a dimension, i.e., `!m_offsets.dims().empty()`. -/
structure BuildState where
  index : Int
  offset : Int
  nbin : Int
  offsetDims : Bool
  deriving DecidableEq, Repr

/-- An action together with the result of the search for relevant output bins: `some (begin, end, scalar)` if the conditions of
`lib/dataset/bin.cpp` 349-352 other than `m_offsets.dims().empty()` hold, see `relevantBins`. `scalar` tells that the coordinate of the
input bins has length 2 for a dimension the input does not have, so that `begin` and `end` are squeezed to scalars (lines 363-367). -/
structure BuildAction (α γ : Type) where
  action : AxisAction α γ
  relevant : Option (Int × Int × Bool)

/-- `begin` and `end` for the input bin at `position`, for a bin-edge coordinate with `n + 1` elements
(`lib/dataset/bin.cpp` 354-361). -/
def relevantBins (edges coord : List α) (position : Nat) : Option (Int × Int) :=
  match (beginEdges edges coord.dropLast 0)[position]?, (endEdges edges coord.tail 0)[position]? with
  | some b, some e => some (b, e)
  | _, _ => none

/-- An action that does not change `m_offsets` and `m_nbin` (`lib/dataset/bin.cpp` 315, 378, 394). -/
def plainStep (s : BuildState) (a : AxisAction α γ) : Except Err BuildState :=
  match a.update s.index with
  | .error err => .error err
  | .ok i => .ok { s with index := i }

/-- Binning along an axis with a search for relevant bins (`lib/dataset/bin.cpp` 353-377). `volume` is `dims().volume()`, `guess` the guess of
`getBin` for the relevant edges. -/
def relevantStep (volume : Int) (s : BuildState) (edges : List α) (linspace : Bool) (guess : List α → α → Int)
    (x : Option α) (b e : Int) (scalar : Bool) : Except Err BuildState :=
  let inner := volume.tdiv ((edges.length : Int) - 1)
  let masked := subEdges edges b e
  match (AxisAction.bin (γ := γ) masked linspace (guess masked) x).update s.index with
  | .error err => .error err
  | .ok i => .ok ⟨i, b * inner, (e - b - 1) * inner, !scalar⟩

/-- One action in `build` (`lib/dataset/bin.cpp` 313-402). -/
def buildStep (volume : Int) (guess' : List α → α → Int) (s : BuildState) (a : BuildAction α γ) : Except Err BuildState :=
  match a.action, a.relevant with
  | .bin edges linspace _ x, some (b, e, scalar) =>
    if s.offsetDims then plainStep s a.action
    else relevantStep (γ := γ) volume s edges linspace guess' x b e scalar
  | .existing nbin position, _ =>
    if s.offsetDims = false ∧ nbin = volume then .ok { s with offset := position, nbin := 1, offsetDims := true }
    else plainStep s a.action
  | _, _ => plainStep s a.action

/-- `TargetBinBuilder::build` (`lib/dataset/bin.cpp` 305-354) for one event. -/
def buildLoop (volume : Int) (guess' : List α → α → Int) : List (BuildAction α γ) → BuildState → Except Err BuildState
  | [], s => .ok s
  | a :: rest, s =>
    match buildStep volume guess' s a with
    | .error err => .error err
    | .ok s => buildLoop volume guess' rest s

/-- `build` for one event from the initial state (`lib/dataset/bin.cpp` 311-312). -/
def build (guess' : List α → α → Int) (actions : List (BuildAction α γ)) : Except Err BuildState :=
  let volume := (actions.map fun a => a.action.extent).prod
  buildLoop volume guess' actions ⟨0, 0, volume, false⟩

end Scipp
