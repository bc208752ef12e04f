import Verif.Model.MultiAxis
/-
The index of the output bin of an event as it is stored: an integer of 32 or 64 bits. The kernels of `Verif/Model/BinIndex.lean` and
`Verif/Model/MultiAxis.lean` with the arithmetic of C++: `index *= n` with an operand of 64 bits multiplies with 64 bits (overflow is undefined behaviour) and then
converts to the type of `index`, which keeps the low bits.
-/
namespace Scipp
variable {α : Type} [LinearOrder α] {γ : Type} [DecidableEq γ]

/-- The types of `target_bins_buffer` (`lib/dataset/bin.cpp` 511-514, 638-641). -/
inductive Width where
  | int32
  | int64
deriving DecidableEq

/-- Half the number of values of the type. -/
def Width.half : Width → Int
  | .int32 => 2147483648
  | .int64 => 9223372036854775808

/-- The type can represent the value. -/
def Width.Fits (w : Width) (x : Int) : Prop := -w.half ≤ x ∧ x < w.half

instance (w : Width) (x : Int) : Decidable (w.Fits x) := inferInstanceAs (Decidable (_ ∧ _))

/-- Conversion of a wider integer: the value with the same low bits. -/
def Width.wrap (w : Width) (x : Int) : Int := (x + w.half) % (2 * w.half) - w.half

/-- `index *= n` with `n` of type `scipp::index` (`lib/core/include/scipp/core/element/bin.h` 66, 77, 140, 170, 182). -/
def mulAssign (w : Width) (index n : Int) : Except Err Int :=
  if Width.int64.Fits (index * n) then .ok (w.wrap (index * n)) else .error .ub

/-- `index += k` with `k` of 64 bits (`bin.h` 81, 172, 183). -/
def addWide (w : Width) (index k : Int) : Except Err Int :=
  if Width.int64.Fits (index + k) then .ok (w.wrap (index + k)) else .error .ub

/-- `index += k` with `k` of the type of the index (`bin.h` 67, 141). -/
def addSame (w : Width) (index k : Int) : Except Err Int :=
  if w.Fits (index + k) then .ok (index + k) else .error .ub

/-- `update_indices_by_binning_linspace` (`bin.h` 56-69). The conversion of the guess and of `nbin - 1` to the type of the index (`histogram.h` 41-42) is not modelled. -/
def updateBinLinspaceW (w : Width) (edges : List α) (guess : α → Int) (x : Option α) (index : Int) : Except Err Int :=
  if index = -1 then .ok index
  else do
    let bin ← getBin x edges guess
    if bin < 0 then return -1
    else addSame w (← mulAssign w index (nbinOf edges)) bin

/-- `update_indices_by_binning_sorted_edges` (`bin.h` 71-83). -/
def updateBinSortedW (w : Width) (edges : List α) (x : Option α) (index : Int) : Except Err Int :=
  if index = -1 then .ok index
  else do
    let it := upperBound edges x
    let index ← mulAssign w index ((edges.length : Int) - 1)
    if it = 0 ∨ it = edges.length then return -1
    else addWide w index ((it : Int) - 1)

/-- `update_indices_by_grouping` (`bin.h` 136-142). -/
def updateGroupW (w : Width) (groups : HashMap γ) (x : γ) (index : Int) : Except Err Int :=
  if index = -1 then .ok index
  else do
    let index ← mulAssign w index groups.length
    match groups.find x with
    | none => return -1
    | some g => addSame w index g

/-- `update_indices_by_grouping_contiguous` (`bin.h` 167-173). Labels of 64 bits: `x - offset` is undefined behaviour if the difference is out of range. -/
def updateGroupContiguousW (w : Width) (ngroup offset x index : Int) : Except Err Int :=
  if index = -1 then .ok index
  else do
    let index ← mulAssign w index ngroup
    if Width.int64.Fits (x - offset) then
      let group := x - offset
      if group < 0 ∨ group ≥ ngroup then return -1 else addWide w index group
    else .error .ub

/-- `update_indices_from_existing` (`bin.h` 179-184). -/
def updateExistingW (w : Width) (binIndex nbin index : Int) : Except Err Int :=
  if index = -1 then .ok index else do addWide w (← mulAssign w index nbin) binIndex

/-- `update_indices_by_grouping`, general path (`lib/dataset/bin_detail.cpp` 96-101). -/
def updateByMapW (w : Width) (labels : List γ) (x : γ) (index : Int) : Except Err Int :=
  match groupsToMap labels with
  | .error e => .error e
  | .ok m => updateGroupW w m x index

/-- The update of the index by an action (`lib/dataset/bin_detail.cpp` 31-110). -/
def AxisAction.updateW (w : Width) (a : AxisAction α γ) (index : Int) : Except Err Int :=
  match a with
  | .bin edges linspace guess x => if linspace then updateBinLinspaceW w edges guess x index else updateBinSortedW w edges x index
  | .group labels x => updateByMapW w labels x index
  | .groupInt labels x =>
    if labels ≠ [] ∧ Numeric.isarange labels then updateGroupContiguousW w labels.length (labels.headD 0) x index else updateByMapW w labels x index
  | .existing nbin position => updateExistingW w position nbin index

/-- The actions in sequence (`lib/dataset/bin.cpp` 314-392). -/
def runActionsW (w : Width) : List (AxisAction α γ) → Int → Except Err Int
  | [], index => .ok index
  | a :: rest, index => do runActionsW w rest (← a.updateW w index)

/-- The type of the index: `n > std::numeric_limits<int32_t>::max()` (`lib/dataset/bin.cpp` 511-514, 638-641). -/
def widthFor (n : Int) : Width := if n > 2147483647 then .int64 else .int32

/-- The index of the output bin of an event of binned data (`TargetBins`, `lib/dataset/bin.cpp` 504-523, 673-674): the type follows from the number of output bins. -/
def binnedIndex (actions : List (AxisAction α γ)) : Except Err Int := runActionsW (widthFor (actions.map AxisAction.extent).prod) actions 0

/-- The index of the output bin of an event of dense data (`lib/dataset/bin.cpp` 638-643): the type follows from the number of events. -/
def denseIndex (events : Int) (actions : List (AxisAction α γ)) : Except Err Int := runActionsW (widthFor events) actions 0

end Scipp
