import Verif.Model.IndexWidth
import Verif.Props.MultiAxis
/-!
# C83: the index of the output bin fits its integer type
-/
namespace Scipp.Props
open Scipp Spec
variable {α : Type} [LinearOrder α] {γ : Type} [DecidableEq γ]

theorem half_le (w : Width) : 0 < w.half ∧ w.half ≤ Width.int64.half := by cases w <;> decide

theorem wrap_fits {w : Width} {x : Int} (h : w.Fits x) : w.wrap x = x := by
  obtain ⟨h1, h2⟩ := h
  unfold Width.wrap
  rw [Int.emod_eq_of_lt (by omega) (by omega)]
  omega

/-- **C83** (representable values): the values of an integer type are exactly those that a conversion to it preserves. -/
theorem C83_representable (w : Width) (x : Int) : w.Fits x ↔ w.wrap x = x := by
  refine ⟨wrap_fits, fun h => ?_⟩
  unfold Width.Fits
  unfold Width.wrap at h
  cases w <;> simp only [Width.half] at h ⊢ <;> omega

example : Width.int32.Fits (-2147483648) ∧ ¬Width.int32.Fits 2147483648 ∧ ¬Width.int32.Fits (-2147483649) := by decide

theorem fits_wide {w : Width} {x : Int} (h : w.Fits x) : Width.int64.Fits x := by
  have := half_le w
  exact ⟨by have := h.1; omega, by have := h.2; omega⟩

theorem mul_ok {w : Width} {index n : Int} (h : w.Fits (index * n)) : mulAssign w index n = .ok (index * n) := by
  unfold mulAssign
  rw [if_pos (fits_wide h), wrap_fits h]

theorem addWide_ok {w : Width} {index n : Int} (h : w.Fits (index + n)) : addWide w index n = .ok (index + n) := by
  unfold addWide
  rw [if_pos (fits_wide h), wrap_fits h]

theorem addSame_ok {w : Width} {index n : Int} (h : w.Fits (index + n)) : addSame w index n = .ok (index + n) := if_pos h

/-- Differences of labels do not overflow. -/
def LabelsInRange (a : AxisAction α γ) : Prop :=
  match a with
  | .groupInt labels x => Width.int64.Fits (x - labels.headD 0)
  | _ => True

theorem updateByMapW_eq {δ : Type} [DecidableEq δ] {w : Width} {labels : List δ} {x : δ} {index : Int} (hm : w.Fits (index * labels.length))
    (hf : ∀ v, updateByMap labels x index = .ok v → w.Fits v) (hn : labels.Nodup) : updateByMapW w labels x index = updateByMap labels x index := by
  obtain ⟨hg, hl⟩ := groupsToMap_nodup labels hn
  unfold updateByMapW
  unfold updateByMap at hf ⊢
  rw [hg] at hf ⊢
  dsimp only at hf ⊢
  unfold updateGroupW
  unfold updateGroup at hf ⊢
  by_cases hi : index = -1
  · rw [if_pos hi, if_pos hi]
  rw [if_neg hi] at hf ⊢
  rw [if_neg hi]
  rw [hl] at hf ⊢
  rw [mul_ok hm]
  simp only [bind, Except.bind]
  cases hx : HashMap.find (groupsLoop labels 0 []) x with
  | none => rfl
  | some g =>
    rw [hx] at hf
    exact addSame_ok (hf _ rfl)

/-- One action: if the exact index fits then nothing is lost. -/
theorem updateW_eq {w : Width} (a : AxisAction α γ) (hv : Valid a) (hl : LabelsInRange a) {index : Int} (hm : w.Fits (index * a.extent))
    (hf : ∀ v, a.update index = .ok v → w.Fits v) : a.updateW w index = a.update index := by
  by_cases hi : index = -1
  · have hmap : ∀ {δ : Type} [DecidableEq δ] (labels : List δ) (x : δ), updateByMapW w labels x (-1) = updateByMap labels x (-1) := by
      intro δ _ labels x
      unfold updateByMapW updateByMap
      cases groupsToMap labels with
      | error e => rfl
      | ok m => simp [updateGroupW, updateGroup]
    subst hi
    cases a with
    | bin edges linspace guess x => cases linspace <;> simp [AxisAction.updateW, AxisAction.update, updateBinLinspaceW, updateBinLinspace, updateBinSortedW, updateBinSorted]
    | group labels x => exact hmap labels x
    | groupInt labels x =>
      simp only [AxisAction.updateW, AxisAction.update, updateByGroupingInt]
      split
      · simp [updateGroupContiguousW, updateGroupContiguous]
      · exact hmap labels x
    | existing nbin position => simp [AxisAction.updateW, AxisAction.update, updateExistingW, updateExisting]
  cases a with
  | bin edges linspace guess x =>
    have hm' : w.Fits (index * ((edges.length : Int) - 1)) := hm
    cases linspace with
    | true =>
      simp only [AxisAction.updateW, AxisAction.update, if_true, updateBinLinspaceW, updateBinLinspace, if_neg hi, bind, Except.bind] at hf ⊢
      cases hb : getBin x edges guess with
      | error e => rfl
      | ok b =>
        rw [hb] at hf
        dsimp only at hf ⊢
        split
        · rfl
        · rename_i hb0
          rw [if_neg hb0] at hf
          unfold nbinOf at hf ⊢
          rw [mul_ok hm']
          exact addSame_ok (hf _ rfl)
    | false =>
      simp only [AxisAction.updateW, AxisAction.update, Bool.false_eq_true, if_false, updateBinSortedW, updateBinSorted, if_neg hi] at hf ⊢
      rw [mul_ok hm']
      simp only [bind, Except.bind]
      split
      · rfl
      · rename_i hb0
        rw [if_neg hb0] at hf
        exact addWide_ok (hf _ rfl)
  | group labels x => exact updateByMapW_eq hm hf hv
  | groupInt labels x =>
    simp only [AxisAction.updateW, AxisAction.update, updateByGroupingInt] at hf ⊢
    split
    · rename_i hc
      rw [if_pos hc] at hf
      unfold updateGroupContiguousW
      unfold updateGroupContiguous at hf ⊢
      rw [if_neg hi] at hf ⊢
      rw [if_neg hi, mul_ok (show w.Fits (index * labels.length) from hm)]
      simp only [bind, Except.bind]
      rw [if_pos (show Width.int64.Fits (x - labels.headD 0) from hl)]
      split
      · rfl
      · rename_i hb0
        rw [if_neg hb0] at hf
        exact addWide_ok (hf _ rfl)
    · rename_i hc
      rw [if_neg hc] at hf
      exact updateByMapW_eq hm hf hv
  | existing nbin position =>
    simp only [AxisAction.updateW, AxisAction.update, updateExistingW, updateExisting, if_neg hi] at hf ⊢
    rw [mul_ok (show w.Fits (index * nbin) from hm)]
    exact addWide_ok (hf _ rfl)

theorem volume_pos : ∀ l : List (AxisAction α γ), (∀ a ∈ l, 0 < a.extent) → 0 < (l.map AxisAction.extent).prod
  | [], _ => by simp
  | b :: l, h => by
    simp only [List.map_cons, List.prod_cons]
    exact Int.mul_pos (h b (by simp)) (volume_pos l fun a ha => h a (by simp [ha]))

/-- **C83** (exact): if the type of the index can represent the number of output bins, computing with this type gives the exact index, for any number and kinds of axes
and any event: neither products nor sums overflow along the way. -/
theorem C83_exact (w : Width) (as : List (AxisAction α γ)) (rs : List (Option Nat)) (h : List.Forall₂ (fun a r => Valid a ∧ Assigned a r) as rs)
    (hl : ∀ a ∈ as, LabelsInRange a) (hp : ∀ a ∈ as, 0 < a.extent) (hw : w.Fits (as.map AxisAction.extent).prod) :
    runActionsW w as 0 = .ok (combineAxes ((as.map AxisAction.extent).zip rs) 0) := by
  have key : ∀ (as : List (AxisAction α γ)) (rs : List (Option Nat)), List.Forall₂ (fun a r => Valid a ∧ Assigned a r) as rs → (∀ a ∈ as, LabelsInRange a) →
      (∀ a ∈ as, 0 < a.extent) → ∀ (index P : Int), (index = -1 ∨ 0 ≤ index ∧ index < P) → 0 < P → w.Fits (P * (as.map AxisAction.extent).prod) →
      runActionsW w as index = runActions as index := by
    intro as rs h
    induction h with
    | nil => intros; rfl
    | @cons a r as rs har _ ih =>
      intro hl hp index P hi hP hw
      have hu := update_spec a har.1 r har.2 index
      have ha := hp a (by simp)
      have hprod : 0 < (as.map AxisAction.extent).prod := volume_pos as fun a h => hp a (by simp [h])
      have hPa : P * a.extent ≤ P * (a.extent * (as.map AxisAction.extent).prod) := by
        refine Int.mul_le_mul_of_nonneg_left ?_ (by omega)
        have := Int.mul_le_mul_of_nonneg_left (show 1 ≤ (as.map AxisAction.extent).prod by omega) (show 0 ≤ a.extent by omega)
        omega
      have hbound : P * a.extent < w.half := by
        have := hw.2
        simp only [List.map_cons, List.prod_cons] at this
        omega
      have hhalf := half_le w
      have hPa0 : 0 < P * a.extent := Int.mul_pos hP ha
      have hstep : nextIndex index a.extent r = -1 ∨ 0 ≤ nextIndex index a.extent r ∧ nextIndex index a.extent r < P * a.extent := by
        unfold nextIndex
        by_cases h1 : index = -1
        · rw [if_pos h1]; exact .inl rfl
        rw [if_neg h1]
        cases hr : r with
        | none => exact .inl rfl
        | some i =>
          refine .inr ?_
          dsimp only
          have hi' := hu.2 i hr
          obtain ⟨h2, h3⟩ := hi.resolve_left h1
          have := Int.mul_nonneg h2 (show 0 ≤ a.extent by omega)
          have h4 : (index + 1) * a.extent ≤ P * a.extent := Int.mul_le_mul_of_nonneg_right (by omega) (by omega)
          have h5 : (index + 1) * a.extent = index * a.extent + a.extent := by ring
          omega
      have hmul : w.Fits (index * a.extent) := by
        rcases hi with rfl | ⟨h2, h3⟩
        · have : a.extent ≤ P * a.extent := by
            have := Int.mul_le_mul_of_nonneg_right (show 1 ≤ P by omega) (show 0 ≤ a.extent by omega)
            omega
          constructor <;> omega
        · have := Int.mul_nonneg h2 (show 0 ≤ a.extent by omega)
          have h4 : index * a.extent ≤ P * a.extent := Int.mul_le_mul_of_nonneg_right (by omega) (by omega)
          constructor <;> omega
      simp only [runActionsW, runActions]
      rw [updateW_eq a har.1 (hl a (by simp)) hmul (fun v hv => by
        rw [hu.1] at hv; cases hv
        rcases hstep with e | ⟨e1, e2⟩
        · rw [e]; constructor <;> omega
        · constructor <;> omega), hu.1]
      exact ih (fun a h => hl a (by simp [h])) (fun a h => hp a (by simp [h])) _ (P * a.extent) hstep hPa0 (by
        simpa [List.map_cons, List.prod_cons, Int.mul_assoc] using hw)
  rw [key as rs h hl hp 0 1 (.inr ⟨by omega, by omega⟩) (by omega) (by simpa using hw)]
  exact C23_row_major as rs h 0 (le_refl 0)

/-- **C83** (binned data): the type chosen from the number of output bins is wide enough, whatever the number of bins (as long as it can be represented at all). -/
theorem C83_binned (as : List (AxisAction α γ)) (rs : List (Option Nat)) (h : List.Forall₂ (fun a r => Valid a ∧ Assigned a r) as rs)
    (hl : ∀ a ∈ as, LabelsInRange a) (hp : ∀ a ∈ as, 0 < a.extent) (hw : Width.int64.Fits (as.map AxisAction.extent).prod) :
    binnedIndex as = .ok (combineAxes ((as.map AxisAction.extent).zip rs) 0) := by
  refine C83_exact _ as rs h hl hp ?_
  unfold widthFor
  split
  · exact hw
  · have := volume_pos as hp
    constructor <;> simp only [Width.half] <;> omega

/-- **C83** (dense data): the type is chosen from the number of events. Partial: this is wide enough only if there are few output bins, or many events; see
`C83_dense_wrong_bin`. -/
theorem C83_dense_partial (events : Int) (as : List (AxisAction α γ)) (rs : List (Option Nat)) (h : List.Forall₂ (fun a r => Valid a ∧ Assigned a r) as rs)
    (hl : ∀ a ∈ as, LabelsInRange a) (hp : ∀ a ∈ as, 0 < a.extent) (hw : Width.int64.Fits (as.map AxisAction.extent).prod)
    (he : (as.map AxisAction.extent).prod ≤ 2147483647 ∨ 2147483647 < events) :
    denseIndex events as = .ok (combineAxes ((as.map AxisAction.extent).zip rs) 0) := by
  refine C83_exact _ as rs h hl hp ?_
  unfold widthFor
  split
  · exact hw
  · have := volume_pos as hp
    constructor <;> simp only [Width.half] <;> omega

/-- The edges `0, 1, ..., n`. -/
private def unitEdges (n : Nat) : List Int := (List.range (n + 1)).map fun (k : Nat) => (k : Int)

private theorem unitEdges_get (n i : Nat) : (unitEdges n)[i]? = if i ≤ n then some (i : Int) else none := by
  unfold unitEdges
  rw [List.getElem?_map]
  by_cases h : i ≤ n
  · rw [if_pos h, List.getElem?_range (by omega)]; rfl
  · rw [if_neg h, List.getElem?_eq_none (by simp; omega)]; rfl

private theorem unitEdges_sorted (n : Nat) : Ascending (unitEdges n) := by
  unfold Ascending unitEdges
  rw [List.pairwise_map]
  exact List.pairwise_lt_range.imp fun h => by omega

private theorem unitEdges_length (n : Nat) : (unitEdges n).length = n + 1 := by simp [unitEdges]

private theorem unitEdges_inBin (n i j : Nat) : InBin (unitEdges n) j (some (i : Int)) ↔ j = i ∧ i < n := by
  unfold InBin
  simp only [unitEdges_get]
  constructor
  · rintro ⟨v, lo, hi, h1, h2, h3, h4, h5⟩
    split at h2
    · split at h3
      · cases h1; cases h2; cases h3; omega
      · cases h3
    · cases h2
  · rintro ⟨rfl, h⟩
    exact ⟨j, j, (j : Int) + 1, rfl, by rw [if_pos (by omega)], by rw [if_pos (by omega)]; rfl, by omega, by omega⟩

private theorem unitEdges_upper {n i : Nat} (h : i < n) : upperBound (unitEdges n) (some (i : Int)) = i + 1 := by
  have := ((C18_sorted_edges (unitEdges n) (unitEdges_sorted n) (some (i : Int))).1 i).2 ((unitEdges_inBin n i i).2 ⟨rfl, h⟩)
  unfold updateBinSorted at this
  rw [if_neg (by decide)] at this
  dsimp only at this
  split at this <;> omega

private def axis (n i : Nat) : AxisAction Int String := .bin (unitEdges n) false (fun v => v) (some i)

private theorem axis_step {w : Width} {n i : Nat} (h : i < n) {index v : Int} (hi : index ≠ -1) (h1 : Width.int64.Fits (index * n))
    (h2 : Width.int64.Fits (w.wrap (index * n) + i)) (hv : w.wrap (w.wrap (index * n) + i) = v) : (axis n i).updateW w index = .ok v := by
  simp only [axis, AxisAction.updateW, Bool.false_eq_true, if_false, updateBinSortedW, if_neg hi, unitEdges_upper h, unitEdges_length]
  have e : ((n + 1 : Nat) : Int) - 1 = n := by omega
  have e' : ((i + 1 : Nat) : Int) - 1 = i := by omega
  rw [e, e']
  unfold mulAssign
  rw [if_pos h1]
  simp only [bind, Except.bind]
  rw [if_neg (by omega)]
  unfold addWide
  rw [if_pos h2, hv]

private theorem axis_assigned {n i : Nat} (h : i < n) : Valid (axis n i) ∧ Assigned (axis n i) (some i) := by
  refine ⟨⟨unitEdges_sorted n, fun e => ?_, fun e => nomatch e⟩, fun j => ?_⟩
  · have := unitEdges_length n
    rw [e] at this
    cases this
  · rw [unitEdges_inBin]
    constructor
    · intro e; cases e; exact ⟨rfl, h⟩
    · rintro ⟨rfl, -⟩; rfl

/-- **C83** fails for dense data: with few events the index has 32 bits, although there may be more output bins. With 65537 bins along each of two axes an event in bin
`(65536, 0)`, which is output bin 4295032832, is put into output bin 65536, which is bin `(0, 65536)`. -/
theorem C83_dense_wrong_bin : ∃ (as : List (AxisAction Int String)) (rs : List (Option Nat)), List.Forall₂ (fun a r => Valid a ∧ Assigned a r) as rs ∧
    as.map AxisAction.extent = [65537, 65537] ∧ rs = [some 65536, some 0] ∧ combineAxes ((as.map AxisAction.extent).zip rs) 0 = 4295032832 ∧
    binnedIndex as = .ok 4295032832 ∧ denseIndex 1 as = .ok 65536 := by
  have hF : List.Forall₂ (fun a r => Valid a ∧ Assigned a r) [axis 65537 65536, axis 65537 0] [some 65536, some 0] :=
    .cons (axis_assigned (by omega)) (.cons (axis_assigned (by omega)) .nil)
  have he : [axis 65537 65536, axis 65537 0].map AxisAction.extent = [65537, 65537] := by
    simp only [List.map_cons, List.map_nil, axis, AxisAction.extent, unitEdges_length]
    rfl
  have hc : combineAxes (([axis 65537 65536, axis 65537 0].map AxisAction.extent).zip [some 65536, some 0]) 0 = 4295032832 := by rw [he]; decide
  refine ⟨_, _, hF, he, rfl, hc, ?_, ?_⟩
  · rw [C83_binned _ _ hF (by simp [axis, LabelsInRange]) (fun a ha => ?_) (by rw [he]; decide), hc]
    have : a.extent ∈ [axis 65537 65536, axis 65537 0].map AxisAction.extent := List.mem_map.2 ⟨a, ha, rfl⟩
    rw [he] at this
    simp only [List.mem_cons, List.not_mem_nil, or_false, or_self] at this
    omega
  · unfold denseIndex
    rw [show widthFor 1 = .int32 from rfl]
    simp only [runActionsW, bind, Except.bind]
    rw [axis_step (v := 65536) (by omega) (by decide) (by decide) (by decide) (by decide)]
    dsimp only
    rw [axis_step (v := 65536) (by omega) (by decide) (by decide) (by decide) (by decide)]

/-- **C83** fails for dense data also by losing events: in bin `(40000, 0)` of 65536 times 65536 the index becomes negative, as if the event were in no bin. -/
theorem C83_dense_loses_event : ∃ (as : List (AxisAction Int String)) (rs : List (Option Nat)) (v : Int), List.Forall₂ (fun a r => Valid a ∧ Assigned a r) as rs ∧
    as.map AxisAction.extent = [65536, 65536] ∧ rs = [some 40000, some 0] ∧ denseIndex 1 as = .ok v ∧ v < 0 := by
  refine ⟨[axis 65536 40000, axis 65536 0], [some 40000, some 0], -1673527296, .cons (axis_assigned (by omega)) (.cons (axis_assigned (by omega)) .nil), ?_, rfl, ?_, by decide⟩
  · simp only [List.map_cons, List.map_nil, axis, AxisAction.extent, unitEdges_length]
    rfl
  · unfold denseIndex
    rw [show widthFor 1 = .int32 from rfl]
    simp only [runActionsW, bind, Except.bind]
    rw [axis_step (v := 40000) (by omega) (by decide) (by decide) (by decide) (by decide)]
    dsimp only
    rw [axis_step (v := -1673527296) (by omega) (by decide) (by decide) (by decide) (by decide)]

/-- Labels far apart: the difference between the label of an event and the first group overflows, which is undefined behaviour, although the event belongs to no group. -/
theorem C83_label_overflow : Assigned (α := Int) (γ := String) (.groupInt [1, 2] (-9223372036854775808)) none ∧
    denseIndex 1 [(.groupInt [1, 2] (-9223372036854775808) : AxisAction Int String)] = .error .ub := by
  refine ⟨fun i => ?_, by decide⟩
  constructor
  · intro h; cases h
  · intro h
    have := List.mem_of_getElem? h
    simp at this

example : binnedIndex [(.groupInt [4, 5] 5 : AxisAction Int String), .existing 3 2, .group ["a", "b"] "a"] = .ok 10 := by decide
example : denseIndex 100 [(.bin [0, 10, 20, 40] false (fun v => v) (some 25) : AxisAction Int String), .group ["a", "b"] "b"] = .ok 5 := by decide
example := C83_exact .int32 [axis 30 7, axis 20 3] [some 7, some 3] (.cons (axis_assigned (by omega)) (.cons (axis_assigned (by omega)) .nil))
  (by simp [axis, LabelsInRange]) (by simp [axis, AxisAction.extent, unitEdges_length]) (by simp [axis, AxisAction.extent, unitEdges_length]; decide)
example := C83_dense_partial 5 [axis 30 7, axis 20 3] [some 7, some 3] (.cons (axis_assigned (by omega)) (.cons (axis_assigned (by omega)) .nil))
  (by simp [axis, LabelsInRange]) (by simp [axis, AxisAction.extent, unitEdges_length]) (by simp [axis, AxisAction.extent, unitEdges_length]; decide)
  (by simp [axis, AxisAction.extent, unitEdges_length])

end Scipp.Props
