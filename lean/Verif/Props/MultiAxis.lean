import Verif.Lemmas.MultiAxis
import Verif.Props.BinIndex
/-!
Properties C23 (several axes), C24 (grouping) and C25 (restriction to relevant output bins). Vocabulary in
`Verif/Spec/MultiAxis.lean`.
-/
namespace Scipp.Props
open Scipp Spec
variable {α : Type} [LinearOrder α] {γ : Type} [DecidableEq γ]

/-- **C24** (general path): with distinct labels, an event is assigned to group `g` exactly if its label is the `g`-th one, and dropped
(`-1`) exactly if its label is not among them. -/
theorem C24_group (labels : List γ) (hn : labels.Nodup) (x : γ) :
    ∃ r, updateByMap labels x 0 = .ok r ∧ (∀ g : Nat, r = g ↔ labels[g]? = some x) ∧ (r = -1 ↔ x ∉ labels) := by
  obtain ⟨hm, hl⟩ := groupsToMap_nodup labels hn
  simp only [updateByMap, hm, updateGroup, (by decide : ¬ ((0 : Int) = -1)), if_false, zero_mul, zero_add]
  refine ⟨_, rfl, ?_⟩
  by_cases hx : x ∈ labels
  · obtain ⟨i, hi⟩ := List.getElem?_of_mem hx
    rw [groupsLoop_get labels hn 0 [] i x hi]
    refine ⟨fun g => ?_, ?_⟩
    · constructor
      · intro h
        have : g = i := by simp only at h; omega
        rw [this]; exact hi
      · intro hg
        obtain ⟨h1, h1'⟩ := List.getElem?_eq_some_iff.mp hi
        obtain ⟨h2, h2'⟩ := List.getElem?_eq_some_iff.mp hg
        have : i = g := by
          have := List.nodup_iff_injective_getElem.mp hn (a₁ := ⟨i, h1⟩) (a₂ := ⟨g, h2⟩) (by simp [h1', h2'])
          simpa using this
        simp [this]
    · simp only [hx, not_true_eq_false, iff_false]; omega
  · rw [groupsLoop_find labels 0 [] x hx]
    refine ⟨fun g => ?_, by simp [HashMap.find, hx]⟩
    simp only [HashMap.find]
    constructor
    · intro h; omega
    · intro h; exact absurd (List.mem_of_getElem? h) hx

example := C24_group ["a", "c", "b"] (by decide) "c"

/-- **C24** (duplicates): in the general path duplicate labels are rejected. -/
theorem C24_duplicates (labels : List γ) (hn : ¬ labels.Nodup) (x : γ) (index : Int) :
    updateByMap labels x index = .error .runtime := by
  simp [updateByMap, groupsToMap_dup labels hn]

example := C24_duplicates ["a", "c", "a"] (by decide) "c" 2

/-- **C24** (fast path): for distinct integer labels the path for consecutive labels gives the same result as the general path.
Partial: duplicate integer labels are not always rejected, see `C24_duplicates_accepted`. -/
theorem C24_integers_partial (labels : List Int) (hn : labels.Nodup) (x index : Int) :
    updateByGroupingInt labels x index = updateByMap labels x index :=
  updateByGroupingInt_eq labels hn x index

example := C24_integers_partial [4, 6, 5] (by decide) 6 2

/-- Labels 0, 1, 0, 1, 2 contain duplicates but are accepted; an event with label 3, which is not a requested label, is put into the last but
one group, that of label 1. -/
theorem C24_duplicates_accepted : updateByGroupingInt [0, 1, 0, 1, 2] 3 0 = .ok 3 := by decide

example : updateByGroupingInt [4, 5, 6] 6 2 = .ok 8 ∧ updateByMap [4, 5, 6] 6 2 = .ok 8 ∧
    updateByGroupingInt [4, 6, 5] 6 2 = .ok 7 ∧ updateByGroupingInt [4, 5, 6] 7 2 = .ok (-1) ∧
    updateByMap [4, 5, 4] 7 2 = .error .runtime := by decide

/-- The index after one more axis with `n` bins. -/
def nextIndex (index n : Int) (r : Option Nat) : Int :=
  if index = -1 then -1 else match r with
    | none => -1
    | some i => index * n + i

/-- Effect of one action on the index. -/
theorem update_spec (a : AxisAction α γ) (hv : Valid a) (r : Option Nat) (hr : Assigned a r) (index : Int) :
    a.update index = .ok (nextIndex index a.extent r) ∧ (∀ i, r = some i → (i : Int) < a.extent) := by
  have hmap : ∀ {δ : Type} [DecidableEq δ] (labels : List δ) (x : δ), labels.Nodup →
      (∀ i : Nat, r = some i ↔ labels[i]? = some x) →
      updateByMap labels x index = .ok (nextIndex index labels.length r) ∧ (∀ i, r = some i → (i : Int) < labels.length) := by
    intro δ _ labels x hn hr
    obtain ⟨hm, hl⟩ := groupsToMap_nodup labels hn
    simp only [updateByMap, hm, updateGroup, hl]
    refine ⟨?_, ?_⟩
    · unfold nextIndex
      by_cases hi : index = -1
      · simp [hi]
      · rw [if_neg hi, if_neg hi]
        cases r with
        | none =>
          have hx : x ∉ labels := by
            intro hx
            obtain ⟨i, hi⟩ := List.getElem?_of_mem hx
            have := (hr i).mpr hi
            cases this
          rw [groupsLoop_find labels 0 [] x hx]
          rfl
        | some i =>
          rw [groupsLoop_get labels hn 0 [] i x ((hr i).mp rfl)]
          simp
    · intro i hi
      obtain ⟨h1, _⟩ := List.getElem?_eq_some_iff.mp ((hr i).mp hi)
      omega
  cases a with
  | bin edges linspace guess x =>
    obtain ⟨hs, hne, hg⟩ := hv
    have hsorted : updateBinSorted edges x index = nextIndex index ((edges.length : Int) - 1) r := by
      unfold nextIndex
      by_cases hi : index = -1
      · simp [updateBinSorted, hi]
      · rw [if_neg hi, mul_add_sorted edges x index hi]
        cases r with
        | none =>
          have hn : ∀ i, ¬ InBin edges i x := fun i h => by have := (hr i).mpr h; cases this
          rw [if_pos (((C18_sorted_edges edges hs x).2).mpr hn)]
        | some i =>
          rw [((C18_sorted_edges edges hs x).1 i).mpr ((hr i).mp rfl), if_neg (by omega)]
    refine ⟨?_, ?_⟩
    · simp only [AxisAction.update, AxisAction.extent]
      cases linspace with
      | false => simp [hsorted]
      | true =>
        rw [if_pos rfl]
        rw [(C18_linspace edges hs hne guess x (by
          intro v i hx hi; subst hx; exact hg rfl v i hi) index).2, hsorted]
    · intro i hi
      obtain ⟨_, _, _, _, _, h2, _⟩ := (hr i).mp hi
      obtain ⟨h, _⟩ := List.getElem?_eq_some_iff.mp h2
      simp only [AxisAction.extent]; omega
  | group labels x => exact hmap labels x hv hr
  | groupInt labels x =>
    have := hmap labels x hv hr
    simp only [AxisAction.update, AxisAction.extent]
    rw [updateByGroupingInt_eq labels hv]
    exact this
  | existing nbin position =>
    obtain ⟨i, rfl, hp⟩ := hr
    simp only [AxisAction.update, updateExisting, AxisAction.extent, hp]
    refine ⟨by unfold nextIndex; split <;> simp_all, ?_⟩
    intro j hj
    cases hj
    have := hv.2
    omega

theorem runActions_minus_one (as : List (AxisAction α γ)) (rs : List (Option Nat))
    (h : List.Forall₂ (fun a r => Valid a ∧ Assigned a r) as rs) : runActions as (-1) = .ok (-1) := by
  induction h with
  | nil => rfl
  | cons h _ ih =>
    simp only [runActions, (update_spec _ h.1 _ h.2 (-1)).1, nextIndex, if_true, ih]

/-- **C23**: after all actions the index of an event is the row-major combination of its bins along the axes, whatever kind of action each
axis has; it is `-1` if the event belongs to no bin along some axis. -/
theorem C23_row_major (as : List (AxisAction α γ)) (rs : List (Option Nat))
    (h : List.Forall₂ (fun a r => Valid a ∧ Assigned a r) as rs) (index : Int) (hi : 0 ≤ index) :
    runActions as index = .ok (combineAxes ((as.map (·.extent)).zip rs) index) := by
  induction h generalizing index with
  | nil => rfl
  | @cons a r as rs h hrest ih =>
    have hu := update_spec a h.1 r h.2 index
    simp only [runActions, hu.1, nextIndex, if_neg (show ¬ index = -1 by omega), List.map_cons, List.zip_cons_cons]
    cases r with
    | none => simp only [combineAxes]; exact runActions_minus_one as rs hrest
    | some i =>
      simp only [combineAxes]
      have hpos : 0 ≤ a.extent := by have := hu.2 i rfl; omega
      exact ih _ (by have := Int.mul_nonneg hi hpos; omega)

/-- An event in group "b" (1 of 2) and in bin [2, 5) (2 of 3), with position 3 of 4 along an existing dim. -/
example : runActions (γ := String) [.group ["a", "b"] "b", .bin [(0 : Int), 1, 2, 5] false (fun _ => 0) (some 3), .existing 4 3] 0 =
    .ok (combineAxes [(2, some 1), (3, some 2), (4, some 3)] 0) := by
  refine C23_row_major [.group ["a", "b"] "b", .bin [(0 : Int), 1, 2, 5] false (fun _ => 0) (some 3), .existing 4 3]
    [some 1, some 2, some 3] (.cons ⟨?_, ?_⟩ (.cons ⟨?_, ?_⟩ (.cons ⟨?_, ?_⟩ .nil))) 0 (by decide)
  · simp [Valid]
  · intro i
    rcases i with _ | _ | i <;> simp
  · exact ⟨by unfold Ascending; decide, by decide, by simp⟩
  · intro i
    constructor
    · rintro ⟨⟩
      exact ⟨3, 2, 5, rfl, rfl, rfl, by decide, by decide⟩
    · rintro ⟨v, lo, hi, e, h1, h2, h3, h4⟩
      cases e
      rcases i with _ | _ | _ | i
      · simp at h1 h2; omega
      · simp at h1 h2; omega
      · rfl
      · simp at h2
  · simp [Valid]
  · exact ⟨3, rfl, rfl⟩

theorem combineAxes_acc (l : List (Int × Nat)) (acc : Int) :
    combineAxes (l.map fun p => (p.1, some p.2)) acc =
      acc * (l.map (·.1)).prod + combineAxes (l.map fun p => (p.1, some p.2)) 0 := by
  induction l generalizing acc with
  | nil => simp [combineAxes]
  | cons p l ih =>
    simp only [List.map_cons, combineAxes, List.prod_cons]
    rw [ih, ih (0 * p.1 + p.2)]
    ring

/-- **C23** (range): the index of an event that is in some bin along every axis is between 0 and the number of output bins. -/
theorem C23_in_range (l : List (Int × Nat)) (h : ∀ p ∈ l, (p.2 : Int) < p.1) :
    0 ≤ combineAxes (l.map fun p => (p.1, some p.2)) 0 ∧
    combineAxes (l.map fun p => (p.1, some p.2)) 0 < (l.map (·.1)).prod := by
  induction l with
  | nil => simp [combineAxes]
  | cons p l ih =>
    obtain ⟨h1, h2⟩ := ih (fun q hq => h q (List.mem_cons_of_mem _ hq))
    have hp := h p (by simp)
    simp only [List.map_cons, combineAxes, List.prod_cons]
    rw [combineAxes_acc]
    generalize (l.map (·.1)).prod = P at *
    generalize combineAxes (l.map fun p => (p.1, some p.2)) 0 = r at *
    have e1 : (0 * p.1 + (p.2 : Int)) * P = p.2 * P := by ring
    rw [e1]
    have hP : 0 ≤ P := by omega
    have h3 : 0 ≤ (p.2 : Int) * P := Int.mul_nonneg (by omega) hP
    have h4 : ((p.2 : Int) + 1) * P ≤ p.1 * P := Int.mul_le_mul_of_nonneg_right (by omega) hP
    have e2 : ((p.2 : Int) + 1) * P = p.2 * P + P := by ring
    omega

example := C23_in_range [(2, 1), (3, 2), (4, 3)] (by decide)

/-- **C23** (no collisions): events in different bins along some axis get different indices. -/
theorem C23_injective (ns : List Int) (is js : List Nat) (hi : is.length = ns.length) (hj : js.length = ns.length)
    (h1 : ∀ p ∈ ns.zip is, (p.2 : Int) < p.1) (h2 : ∀ p ∈ ns.zip js, (p.2 : Int) < p.1)
    (h : combineAxes ((ns.zip is).map fun p => (p.1, some p.2)) 0 = combineAxes ((ns.zip js).map fun p => (p.1, some p.2)) 0) :
    is = js := by
  induction ns generalizing is js with
  | nil =>
    rw [List.length_nil, List.length_eq_zero_iff] at hi hj
    rw [hi, hj]
  | cons n ns ih =>
    cases is with
    | nil => simp at hi
    | cons i is =>
      cases js with
      | nil => simp at hj
      | cons j js =>
        simp only [List.length_cons, Nat.add_right_cancel_iff] at hi hj
        simp only [List.zip_cons_cons, List.mem_cons, forall_eq_or_imp] at h1 h2
        simp only [List.zip_cons_cons, List.map_cons, combineAxes] at h
        rw [combineAxes_acc, combineAxes_acc (ns.zip js)] at h
        obtain ⟨a1, a2⟩ := C23_in_range _ h1.2
        obtain ⟨b1, b2⟩ := C23_in_range _ h2.2
        have ei : ((ns.zip is).map (·.1)) = ns := by
          rw [List.map_fst_zip]; omega
        have ej : ((ns.zip js).map (·.1)) = ns := by
          rw [List.map_fst_zip]; omega
        rw [ei] at h a2
        rw [ej] at h b2
        have hij : i = j := by
          generalize ns.prod = P at *
          rcases Nat.lt_trichotomy i j with hlt | heq | hgt
          · exfalso
            have : ((i : Int) + 1) * P ≤ j * P := Int.mul_le_mul_of_nonneg_right (by omega) (by omega)
            have e : ((i : Int) + 1) * P = i * P + P := by ring
            have e1 : (0 * n + (i : Int)) * P = i * P := by ring
            have e2 : (0 * n + (j : Int)) * P = j * P := by ring
            rw [e1, e2] at h
            omega
          · exact heq
          · exfalso
            have : ((j : Int) + 1) * P ≤ i * P := Int.mul_le_mul_of_nonneg_right (by omega) (by omega)
            have e : ((j : Int) + 1) * P = j * P + P := by ring
            have e1 : (0 * n + (i : Int)) * P = i * P := by ring
            have e2 : (0 * n + (j : Int)) * P = j * P := by ring
            rw [e1, e2] at h
            omega
        subst hij
        rw [ih is js hi hj h1.2 h2.2 (by omega)]

/-- Different bins have different positions. -/
example : combineAxes [(2, some 1), (3, some 0)] 0 ≠ combineAxes [(2, some 0), (3, some 2)] 0 := fun h =>
  absurd (C23_injective [2, 3] [1, 0] [0, 2] rfl rfl (by decide) (by decide) h) (by decide)

example : runActions (γ := String) [.group ["a", "b"] "b", .bin [(0 : Int), 1, 2, 5] false (fun _ => 0) (some 3),
    .existing 4 3, .groupInt [5, 6] 5] 0 = .ok 46 := by decide

example : runActions (γ := String) [.group ["a", "b"] "b", .bin [(0 : Int), 1, 2, 5] false (fun _ => 0) (some 5),
    .existing 4 3] 0 = .ok (-1) := by decide

/-! ### C25 -/

theorem beginEdgeStep_spec (edges : List α) (h : Ascending edges) (coord : α) : ∀ (fuel : Nat) (bin : Nat),
    edges.length ≤ fuel + bin → bin + 2 ≤ edges.length → (bin = 0 ∨ ∃ e, edges[bin]? = some e ∧ e ≤ coord) →
    ∃ b : Nat, beginEdgeStep edges coord fuel bin = b ∧ bin ≤ b ∧ b + 2 ≤ edges.length ∧
      (b = 0 ∨ ∃ e, edges[b]? = some e ∧ e ≤ coord) := by
  intro fuel
  induction fuel with
  | zero => intro bin h1 h2 _; omega
  | succ fuel ih =>
    intro bin h1 h2 h3
    simp only [beginEdgeStep]
    by_cases hlt : (bin : Int) + 2 < edges.length
    · have hb : bin + 1 < edges.length := by omega
      have hg := List.getElem?_eq_getElem hb
      have hv : vecGet edges ((bin : Int) + 1) = some edges[bin + 1] := by
        rw [show (bin : Int) + 1 = ((bin + 1 : Nat) : Int) by omega, SubbinSizes.vecGet_nat, hg]
      rw [if_pos hlt, hv]
      by_cases he : edges[bin + 1] ≤ coord
      · simp only [if_pos he]
        obtain ⟨b, hb1, hb2, hb3⟩ := ih (bin + 1) (by omega) (by omega) (Or.inr ⟨_, hg, he⟩)
        exact ⟨b, by rw [← hb1]; push_cast; rfl, by omega, hb3⟩
      · simp only [if_neg he]
        exact ⟨bin, rfl, le_refl _, h2, h3⟩
    · rw [if_neg hlt]
      exact ⟨bin, rfl, le_refl _, h2, h3⟩

theorem endEdgeStep_spec (edges : List α) (coord : α) : ∀ (fuel : Nat) (bin : Nat),
    edges.length ≤ fuel + bin → bin + 2 ≤ edges.length →
    ∃ b : Nat, endEdgeStep edges coord fuel bin = b ∧ bin ≤ b ∧ b + 2 ≤ edges.length ∧
      (b + 2 = edges.length ∨ ∃ e, edges[b + 1]? = some e ∧ coord ≤ e) := by
  intro fuel
  induction fuel with
  | zero => intro bin h1 h2; omega
  | succ fuel ih =>
    intro bin h1 h2
    simp only [endEdgeStep]
    by_cases hlt : (bin : Int) + 2 < edges.length
    · have hb : bin + 1 < edges.length := by omega
      have hg := List.getElem?_eq_getElem hb
      have hv : vecGet edges ((bin : Int) + 1) = some edges[bin + 1] := by
        rw [show (bin : Int) + 1 = ((bin + 1 : Nat) : Int) by omega, SubbinSizes.vecGet_nat, hg]
      rw [if_pos hlt, hv]
      by_cases he : edges[bin + 1] < coord
      · simp only [if_pos he]
        obtain ⟨b, hb1, hb2, hb3⟩ := ih (bin + 1) (by omega) (by omega)
        exact ⟨b, by rw [← hb1]; push_cast; rfl, by omega, hb3⟩
      · simp only [if_neg he]
        exact ⟨bin, rfl, le_refl _, h2, Or.inr ⟨_, hg, le_of_not_gt he⟩⟩
    · rw [if_neg hlt]
      exact ⟨bin, rfl, le_refl _, h2, Or.inl (by omega)⟩

theorem beginEdges_spec (edges : List α) (h : Ascending edges) (hl : 2 ≤ edges.length) :
    ∀ (coords : List α) (bin : Nat), Ascending coords → bin + 2 ≤ edges.length →
    (bin = 0 ∨ ∃ e, edges[bin]? = some e ∧ ∀ c ∈ coords, e ≤ c) →
    ∀ (i : Nat) (c : α), coords[i]? = some c → ∃ b : Nat, (beginEdges edges coords bin)[i]? = some (b : Int) ∧
      b + 2 ≤ edges.length ∧ (b = 0 ∨ ∃ e, edges[b]? = some e ∧ e ≤ c) := by
  intro coords
  induction coords with
  | nil => intro bin _ _ _ i c hc; simp at hc
  | cons c0 cs ih =>
    intro bin hs hbin hpre i c hc
    unfold Ascending at hs
    rw [List.pairwise_cons] at hs
    obtain ⟨b, hb, hle, hb2, hb3⟩ := beginEdgeStep_spec edges h c0 edges.length bin (by omega) hbin (by
      rcases hpre with h0 | ⟨e, he, hall⟩
      · exact Or.inl h0
      · exact Or.inr ⟨e, he, hall c0 (by simp)⟩)
    simp only [beginEdges, hb]
    cases i with
    | zero =>
      simp only [List.getElem?_cons_zero, Option.some.injEq] at hc
      subst hc
      exact ⟨b, by simp, hb2, hb3⟩
    | succ i =>
      simp only [List.getElem?_cons_succ]
      refine ih b hs.2 hb2 ?_ i c (by simpa using hc)
      rcases hb3 with h0 | ⟨e, he, hle⟩
      · exact Or.inl h0
      · exact Or.inr ⟨e, he, fun c' hc' => le_trans hle (hs.1 c' hc')⟩

theorem endEdges_spec (edges : List α) (hl : 2 ≤ edges.length) :
    ∀ (coords : List α) (bin : Nat), bin + 2 ≤ edges.length →
    ∀ (i : Nat) (c : α), coords[i]? = some c → ∃ b : Nat, (endEdges edges coords bin)[i]? = some ((b : Int) + 2) ∧
      b + 2 ≤ edges.length ∧ (b + 2 = edges.length ∨ ∃ e, edges[b + 1]? = some e ∧ c ≤ e) := by
  intro coords
  induction coords with
  | nil => intro bin _ i c hc; simp at hc
  | cons c0 cs ih =>
    intro bin hbin i c hc
    obtain ⟨b, hb, hle, hb2, hb3⟩ := endEdgeStep_spec edges c0 edges.length bin (by omega) hbin
    simp only [endEdges, hb]
    cases i with
    | zero =>
      simp only [List.getElem?_cons_zero, Option.some.injEq] at hc
      subst hc
      exact ⟨b, by simp, hb2, hb3⟩
    | succ i =>
      simp only [List.getElem?_cons_succ]
      exact ih b hb2 i c (by simpa using hc)

theorem subEdges_get (edges : List α) (b e : Nat) (i : Nat) :
    (subEdges edges b e)[i]? = if b + i < e then edges[b + i]? else none := by
  simp only [subEdges, Int.toNat_natCast, List.getElem?_drop, List.getElem?_take]

theorem subEdges_ascending (edges : List α) (h : Ascending edges) (b e : Int) : Ascending (subEdges edges b e) :=
  (List.Pairwise.sublist ((List.drop_sublist _ _).trans (List.take_sublist _ _)) h)

/-- **C25** (one axis): for input bins with bin-edge coordinate `coord` (sorted), consider the input bin at `position`. Restricting to the
output edges between its begin and end changes the bin found for an event inside the input bin just by the
constant `begin`; and the event is in no output bin exactly if it is in none of the relevant ones. -/
theorem C25_relevant_bins (edges coord : List α) (h : Ascending edges) (hl : 2 ≤ edges.length) (hc : Ascending coord)
    (position : Nat) (left right v : α) (hleft : coord[position]? = some left)
    (hright : coord[position + 1]? = some right) (hv : left ≤ v ∧ v < right) :
    ∃ b e : Nat, relevantBins edges coord position = some ((b : Int), (e : Int)) ∧ b + 2 ≤ e ∧ e ≤ edges.length ∧
      ∀ i, InBin edges i (some v) ↔ b ≤ i ∧ InBin (subEdges edges b e) (i - b) (some v) := by
  obtain ⟨hp, _⟩ := List.getElem?_eq_some_iff.mp hright
  have hleft' : coord.dropLast[position]? = some left := by
    rw [List.getElem?_dropLast, if_pos (by omega)]; exact hleft
  have hright' : coord.tail[position]? = some right := by rw [List.getElem?_tail]; exact hright
  obtain ⟨b, hb, hb1, hb2⟩ := beginEdges_spec edges h hl coord.dropLast 0
    (List.Pairwise.sublist (List.dropLast_sublist _) hc) (by omega) (Or.inl rfl) position left hleft'
  obtain ⟨e, he, he1, he2⟩ := endEdges_spec edges hl coord.tail 0 (by omega) position right hright'
  -- an input bin that is not empty has at least one relevant output bin
  have hbe : b ≤ e := by
    by_contra hlt
    push Not at hlt
    rcases hb2 with h0 | ⟨eb, heb, hle⟩
    · omega
    · rcases he2 with h0 | ⟨ee, hee, hle'⟩
      · omega
      · have := Ascending.le h (show e + 1 ≤ b by omega) hee heb
        exact absurd (lt_of_lt_of_le (lt_of_le_of_lt hv.1 hv.2) (le_trans hle' (le_trans this hle))) (lt_irrefl _)
  refine ⟨b, e + 2, ?_, by omega, he1, ?_⟩
  · rw [show ((0 : Nat) : Int) = 0 from rfl] at hb he
    simp only [relevantBins, hb, he]
    rfl
  · intro i
    constructor
    · rintro ⟨v', lo, hi, ev, h1, h2, h3, h4⟩
      cases ev
      obtain ⟨hil, _⟩ := List.getElem?_eq_some_iff.mp h2
      have hbi : b ≤ i := by
        by_contra hlt
        push Not at hlt
        rcases hb2 with h0 | ⟨eb, heb, hle⟩
        · omega
        · have := Ascending.le h (show i + 1 ≤ b by omega) h2 heb
          exact absurd (lt_of_lt_of_le h4 (le_trans this (le_trans hle hv.1))) (lt_irrefl _)
      have hie : i ≤ e := by
        by_contra hlt
        push Not at hlt
        rcases he2 with h0 | ⟨ee, hee, hle'⟩
        · omega
        · have := Ascending.le h (show e + 1 ≤ i by omega) hee h1
          exact absurd (lt_of_lt_of_le hv.2 (le_trans hle' (le_trans this h3))) (lt_irrefl _)
      refine ⟨hbi, v, lo, hi, rfl, ?_, ?_, h3, h4⟩
      · rw [subEdges_get, if_pos (by omega), show b + (i - b) = i by omega]; exact h1
      · rw [subEdges_get, if_pos (by omega), show b + (i - b + 1) = i + 1 by omega]; exact h2
    · rintro ⟨hbi, v', lo, hi, ev, h1, h2, h3, h4⟩
      cases ev
      rw [subEdges_get] at h1 h2
      split at h1
      · split at h2
        · rw [show b + (i - b) = i by omega] at h1
          rw [show b + (i - b + 1) = i + 1 by omega] at h2
          exact ⟨v, lo, hi, rfl, h1, h2, h3, h4⟩
        · cases h2
      · cases h1

/-- The input bin is [2, 5), the output bins are [0, 1), [1, 4), [4, 6). -/
example := C25_relevant_bins [(0 : Int), 1, 4, 6] [0, 2, 5, 8] (by unfold Ascending; decide) (by decide) (by unfold Ascending; decide)
  1 2 5 3 rfl rfl (by decide)

theorem buildLoop_plain (volume : Int) (guess' : List α → α → Int) (acts : List (BuildAction α γ)) (s : BuildState)
    (h : s.offsetDims = true ∨ ∀ a ∈ acts, a.relevant = none ∧ ∀ p, a.action ≠ .existing volume p) (r : Int)
    (hr : runActions (acts.map (·.action)) s.index = .ok r) :
    buildLoop volume guess' acts s = .ok { s with index := r } := by
  induction acts generalizing s with
  | nil =>
    simp only [List.map_nil, runActions, Except.ok.injEq] at hr
    subst hr; rfl
  | cons a acts ih =>
    have hplain : buildStep volume guess' s a = plainStep s a.action := by
      obtain ⟨act, rel⟩ := a
      rcases h with h | h
      · cases act <;> cases rel <;> simp [buildStep, h]
      · obtain ⟨h1, h2⟩ := h _ (List.mem_cons_self ..)
        simp only at h1 h2
        subst h1
        cases act with
        | existing n p =>
          have hn : n ≠ volume := fun hn => h2 p (by rw [hn])
          simp [buildStep, hn]
        | _ => rfl
    simp only [List.map_cons, runActions] at hr
    cases hu : a.action.update s.index with
    | error e => simp [hu] at hr
    | ok i =>
      simp only [hu] at hr
      simp only [buildLoop, hplain, plainStep, hu]
      refine ih { s with index := i } ?_ hr
      rcases h with h | h
      · exact Or.inl h
      · exact Or.inr fun a' ha' => h a' (List.mem_cons_of_mem _ ha')

theorem combineAxes_ones (l : List (Int × Option Nat)) (h : ∀ p ∈ l, p.1 = 1 ∧ ∀ i, p.2 = some i → (i : Int) < p.1) :
    combineAxes l 0 = 0 ∨ combineAxes l 0 = -1 := by
  induction l with
  | nil => exact Or.inl rfl
  | cons p l ih =>
    obtain ⟨n, r⟩ := p
    obtain ⟨h1, h2⟩ := h (n, r) (by simp)
    cases r with
    | none => exact Or.inr rfl
    | some i =>
      have := h2 i rfl
      simp only at h1 this
      have hi : i = 0 := by omega
      subst hi
      simp only [combineAxes, Int.zero_mul, Int.natCast_zero, Int.add_zero]
      exact ih (fun q hq => h q (List.mem_cons_of_mem _ hq))

theorem combineAxes_append (l m : List (Int × Option Nat)) (acc : Int) :
    combineAxes (l ++ m) acc = if (∃ p ∈ l, p.2 = none) then -1 else combineAxes m (combineAxes l acc) := by
  induction l generalizing acc with
  | nil => simp [combineAxes]
  | cons p l ih =>
    obtain ⟨n, r⟩ := p
    cases r with
    | none => simp [combineAxes]
    | some i =>
      rw [List.cons_append, combineAxes, ih, combineAxes]
      simp only [List.mem_cons, exists_eq_or_imp, reduceCtorEq, false_or]

theorem combineAxes_none (l : List (Int × Option Nat)) (acc : Int) (h : ∃ p ∈ l, p.2 = none) : combineAxes l acc = -1 := by
  have := combineAxes_append l [] acc
  rw [List.append_nil, if_pos h] at this
  exact this

theorem somes_of_not_none (l : List (Int × Option Nat)) (h : ¬ ∃ p ∈ l, p.2 = none) :
    ∃ l' : List (Int × Nat), l = l'.map fun p => (p.1, some p.2) := by
  induction l with
  | nil => exact ⟨[], rfl⟩
  | cons p l ih =>
    obtain ⟨n, r⟩ := p
    obtain ⟨l', hl'⟩ := ih (fun ⟨q, hq, e⟩ => h ⟨q, List.mem_cons_of_mem _ hq, e⟩)
    cases r with
    | none => exact absurd ⟨(n, none), by simp, rfl⟩ h
    | some i => exact ⟨(n, i) :: l', by simp [hl']⟩

theorem zip_mem_spec (as : List (AxisAction α γ)) (rs : List (Option Nat))
    (h : List.Forall₂ (fun a r => Valid a ∧ Assigned a r) as rs) :
    ∀ p ∈ (as.map (·.extent)).zip rs, ∀ i, p.2 = some i → (i : Int) < p.1 := by
  induction h with
  | nil => simp
  | @cons a r as rs h _ ih =>
    intro p hp i hi
    simp only [List.map_cons, List.zip_cons_cons, List.mem_cons] at hp
    rcases hp with rfl | hp
    · exact (update_spec a h.1 r h.2 0).2 i hi
    · exact ih p hp i hi

theorem forall₂_length {as : List (AxisAction α γ)} {rs : List (Option Nat)}
    (h : List.Forall₂ (fun a r => Valid a ∧ Assigned a r) as rs) : as.length = rs.length := h.length_eq

private theorem prod_nonneg_list : ∀ (l : List Int), (∀ n ∈ l, 0 ≤ n) → 0 ≤ l.prod
  | [], _ => by simp
  | a :: l, h => by
    rw [List.prod_cons]
    exact Int.mul_nonneg (h a (by simp)) (prod_nonneg_list l fun n hn => h n (by simp [hn]))

theorem extent_nonneg (a : AxisAction α γ) (h : Valid a) : 0 ≤ a.extent := by
  cases a with
  | bin edges _ _ _ =>
    have := List.length_pos_iff.2 h.2.1
    simp only [AxisAction.extent]; omega
  | group labels _ => simp [AxisAction.extent]
  | groupInt labels _ => simp [AxisAction.extent]
  | existing n p =>
    have h1 : 0 ≤ p ∧ p < n := h
    simp only [AxisAction.extent]; omega

/-- **C25** (all axes): if the axis with restricted output bins is the first one, apart from axes with a single bin, then offset plus index is the
row-major output bin of the event, and the index lies in the range reserved for the input bin, which is a range of output bins. Partial: if the restricted axis comes after an
axis with more than one bin the result is wrong, see `C25_wrong_after_group`; a second restricted axis whose coordinate has length 2 and whose
dimension the input does not have is excluded, see `C25_wrong_for_two_scalars`. -/
theorem C25_build_partial (guess' : List α → α → Int) (pre post : List (BuildAction α γ)) (edges : List α)
    (linspace : Bool) (guess : α → Int) (x : Option α) (coord : List α) (position : Nat) (left right : α)
    (rpre rpost : List (Option Nat)) (r : Option Nat)
    (hpre : ∀ a ∈ pre, a.action.extent = 1 ∧ a.relevant = none ∧ ∀ n p, a.action ≠ .existing n p)
    (hvpre : List.Forall₂ (fun a r => Valid a ∧ Assigned a r) (pre.map (·.action)) rpre)
    (hvpost : List.Forall₂ (fun a r => Valid a ∧ Assigned a r) (post.map (·.action)) rpost)
    (hs : Ascending edges) (hl : 2 ≤ edges.length) (hc : Ascending coord)
    (hleft : coord[position]? = some left) (hright : coord[position + 1]? = some right) (hlr : left < right)
    (hx : ∀ v, x = some v → left ≤ v ∧ v < right)
    (hr : ∀ i : Nat, r = some i ↔ InBin edges i x)
    (hguess : linspace = true → ∀ b e, GuessOk (subEdges edges b e) (guess' (subEdges edges b e))) :
    ∃ s, build guess' (pre ++ ⟨.bin edges linspace guess x,
          (relevantBins edges coord position).map fun p => (p.1, p.2, false)⟩ :: post) = .ok s ∧ (0 ≤ s.offset ∧ s.offset + s.nbin ≤ ((edges.length : Int) - 1) * (post.map (·.action.extent)).prod) ∧
      let total := combineAxes (((pre.map (·.action.extent)) ++ ((edges.length : Int) - 1) :: post.map (·.action.extent)).zip
        (rpre ++ r :: rpost)) 0
      (total = -1 → s.index = -1) ∧
      (total ≠ -1 → s.offset + s.index = total ∧ 0 ≤ s.index ∧ s.index < s.nbin) := by
  -- the relevant bins
  obtain ⟨b, e, hrel, hbe, hel, _⟩ := C25_relevant_bins edges coord hs hl hc position left right left hleft hright
    ⟨le_refl _, hlr⟩
  have hin : ∀ i, InBin edges i x ↔ b ≤ i ∧ InBin (subEdges edges b e) (i - b) x := by
    cases x with
    | none =>
      intro i
      constructor
      · rintro ⟨_, _, _, h, _⟩; cases h
      · rintro ⟨_, _, _, _, h, _⟩; cases h
    | some v =>
      obtain ⟨b', e', hrel', _, _, h⟩ := C25_relevant_bins edges coord hs hl hc position left right v hleft hright (hx v rfl)
      rw [hrel] at hrel'
      simp only [Option.some.injEq, Prod.mk.injEq, Int.natCast_inj] at hrel'
      rw [hrel'.1, hrel'.2]
      exact h
  have hsublen : ((subEdges edges b e).length : Int) = (e : Int) - b := by
    simp only [subEdges, List.length_drop, List.length_take, Int.toNat_natCast]; omega
  have hsub : Ascending (subEdges edges b e) := subEdges_ascending edges hs b e
  have hsubne : subEdges edges b e ≠ [] := by
    intro h; rw [h] at hsublen; simp at hsublen; omega
  -- the actions before
  have hprezip : pre.map (fun a => a.action.extent) = (pre.map (·.action)).map (·.extent) := by simp
  have hpostzip : post.map (fun a => a.action.extent) = (post.map (·.action)).map (·.extent) := by simp
  have hprerun := C23_row_major _ _ hvpre 0 (le_refl _)
  have hpreones := combineAxes_ones (((pre.map (·.action)).map (·.extent)).zip rpre) (by
    intro p hp
    refine ⟨?_, zip_mem_spec _ _ hvpre p hp⟩
    have := (List.of_mem_zip hp).1
    simp only [List.map_map, List.mem_map] at this
    obtain ⟨a, ha, hae⟩ := this
    rw [← hae]
    exact (hpre a ha).1)
  have hlenpre : (pre.map (·.action.extent)).length = rpre.length := by
    have := forall₂_length hvpre
    simpa using this
  -- the volume
  have hvol : ((pre ++ (⟨.bin edges linspace guess x,
      (relevantBins edges coord position).map fun p => (p.1, p.2, false)⟩ : BuildAction α γ) :: post).map
        fun a => a.action.extent).prod = ((edges.length : Int) - 1) * (post.map fun a => a.action.extent).prod := by
    rw [List.map_append, List.prod_append, List.map_cons, List.prod_cons]
    have : (pre.map fun a => a.action.extent).prod = 1 := by
      apply List.prod_eq_one
      intro n hn
      rw [List.mem_map] at hn
      obtain ⟨a, ha, rfl⟩ := hn
      exact (hpre a ha).1
    rw [this, one_mul]
    rfl
  generalize hV : ((edges.length : Int) - 1) * (post.map fun a => a.action.extent).prod = V at hvol
  have hinner : V.tdiv ((edges.length : Int) - 1) = (post.map fun a => a.action.extent).prod := by
    rw [← hV, Int.mul_tdiv_cancel_left _ (by omega)]
  have hP : 0 ≤ (post.map fun a => a.action.extent).prod := by
    apply prod_nonneg_list
    intro n hn
    obtain ⟨a, ha, rfl⟩ := List.mem_map.1 hn
    obtain ⟨r, hr⟩ : ∃ r, Valid a.action ∧ Assigned a.action r := by
      have : a.action ∈ post.map (·.action) := List.mem_map_of_mem ha
      clear hr
      generalize post.map (·.action) = l at hvpost this
      induction hvpost with
      | nil => cases this
      | cons h _ ih =>
        rcases List.mem_cons.1 this with rfl | h'
        · exact ⟨_, h⟩
        · exact ih h'
    exact extent_nonneg _ hr.1
  have hbound : 0 ≤ (b : Int) * (post.map fun a => a.action.extent).prod ∧
      (b : Int) * (post.map fun a => a.action.extent).prod + ((e : Int) - b - 1) * (post.map fun a => a.action.extent).prod ≤ V := by
    refine ⟨Int.mul_nonneg (by omega) hP, ?_⟩
    rw [← hV, ← Int.add_mul]
    exact Int.mul_le_mul_of_nonneg_right (by omega) hP
  -- run the loop
  simp only [build, hvol]
  have happ : ∀ (acts1 acts2 : List (BuildAction α γ)) (s : BuildState), buildLoop V guess' (acts1 ++ acts2) s =
      match buildLoop V guess' acts1 s with
      | .error err => .error err
      | .ok s => buildLoop V guess' acts2 s := by
    intro acts1
    induction acts1 with
    | nil => intro acts2 s; rfl
    | cons a acts1 ih =>
      intro acts2 s
      simp only [List.cons_append, buildLoop]
      cases buildStep V guess' s a with
      | error e => rfl
      | ok s' => exact ih acts2 s'
  rw [happ, buildLoop_plain V guess' pre ⟨0, 0, V, false⟩ (Or.inr fun a ha => ⟨(hpre a ha).2.1, fun p => (hpre a ha).2.2 V p⟩) _ hprerun]
  generalize hr0 : combineAxes (((pre.map (·.action)).map (·.extent)).zip rpre) 0 = r0 at hpreones
  simp only [buildLoop]
  -- the restricted axis
  have hassigned : Assigned (γ := γ) (.bin (subEdges edges b e) linspace (guess' (subEdges edges b e)) x)
      (r.map (· - b)) := by
    intro i
    cases r with
    | none =>
      simp only [Option.map_none, reduceCtorEq, false_iff]
      intro h
      have := (hr (i + b)).mpr ((hin (i + b)).mpr ⟨by omega, by rwa [Nat.add_sub_cancel]⟩)
      cases this
    | some j =>
      have hj := (hin j).mp ((hr j).mp rfl)
      simp only [Option.map_some, Option.some.injEq]
      constructor
      · intro h; rw [← h]; exact hj.2
      · intro h
        have := (hr (i + b)).mpr ((hin (i + b)).mpr ⟨by omega, by rwa [Nat.add_sub_cancel]⟩)
        simp only [Option.some.injEq] at this
        omega
  have hupd := update_spec (γ := γ) (.bin (subEdges edges b e) linspace (guess' (subEdges edges b e)) x)
    ⟨hsub, hsubne, fun h => hguess h b e⟩ _ hassigned r0
  have hstep : buildStep V guess' ⟨r0, 0, V, false⟩ (⟨.bin edges linspace guess x,
      (relevantBins edges coord position).map fun p => (p.1, p.2, false)⟩ : BuildAction α γ) =
      .ok ⟨nextIndex r0 ((e : Int) - b - 1) (r.map (· - b)), b * (post.map fun a => a.action.extent).prod,
        ((e : Int) - b - 1) * (post.map fun a => a.action.extent).prod, true⟩ := by
    simp only [buildStep, hrel, Option.map_some, relevantStep, hinner, hupd.1, AxisAction.extent, hsublen]
    rfl
  rw [hstep]
  simp only
  rw [List.zip_append hlenpre, List.zip_cons_cons, hprezip, hpostzip, combineAxes_append]
  by_cases hpn : ∃ p ∈ ((pre.map (·.action)).map (·.extent)).zip rpre, p.2 = none
  · -- dropped by an action before
    rw [if_pos hpn]
    have : r0 = -1 := by rw [← hr0]; exact combineAxes_none _ _ hpn
    subst this
    refine ⟨_, buildLoop_plain V guess' post _ (Or.inl rfl) (-1) ?_, hpostzip ▸ hbound, by simp, by simp⟩
    simp only [nextIndex, if_true]
    exact runActions_minus_one _ _ hvpost
  · rw [if_neg hpn]
    have h0 : r0 = 0 := by
      rcases hpreones with h | h
      · exact h
      · exfalso
        obtain ⟨l', hl'⟩ := somes_of_not_none _ hpn
        have hmem := zip_mem_spec _ _ hvpre
        rw [hl'] at hr0 hmem
        have := (C23_in_range l' (fun p hp => hmem (p.1, some p.2) (List.mem_map.mpr ⟨p, hp, rfl⟩) p.2 rfl)).1
        omega
    rw [hr0]
    subst h0
    cases r with
    | none =>
      refine ⟨_, buildLoop_plain V guess' post _ (Or.inl rfl) (-1) ?_, hpostzip ▸ hbound, by simp, by simp [combineAxes]⟩
      simp only [nextIndex]
      exact runActions_minus_one _ _ hvpost
    | some j =>
      have hj := (hin j).mp ((hr j).mp rfl)
      have hjlt := hupd.2 (j - b) rfl
      simp only [AxisAction.extent, hsublen] at hjlt
      have hidx : nextIndex 0 ((e : Int) - b - 1) (Option.map (· - b) (some j)) = (j : Int) - b := by
        simp only [nextIndex, Option.map_some]
        rw [if_neg (by omega)]; omega
      rw [hidx]
      refine ⟨_, buildLoop_plain V guess' post _ (Or.inl rfl) _ (C23_row_major _ _ hvpost ((j : Int) - b) (by omega)), hpostzip ▸ hbound, ?_⟩
      simp only [combineAxes, zero_mul, zero_add]
      by_cases hpost : ∃ p ∈ ((post.map (·.action)).map (·.extent)).zip rpost, p.2 = none
      · rw [combineAxes_none _ _ hpost, combineAxes_none _ _ hpost]
        simp
      · obtain ⟨l', hl'⟩ := somes_of_not_none _ hpost
        have hmem := zip_mem_spec _ _ hvpost
        have hlt' : ((post.map (·.action)).map (·.extent)).length = rpost.length := by
          have := forall₂_length hvpost
          simpa using this
        have hprod : (l'.map (·.1)).prod = ((post.map (·.action)).map (·.extent)).prod := by
          congr 1
          have h1 := congrArg (List.map Prod.fst) hl'
          rw [List.map_fst_zip (by omega)] at h1
          rw [h1, List.map_map]; rfl
        rw [hl'] at hmem ⊢
        obtain ⟨hge, hlt⟩ := C23_in_range l' (fun p hp => hmem (p.1, some p.2) (List.mem_map.mpr ⟨p, hp, rfl⟩) p.2 rfl)
        rw [combineAxes_acc l' (j : Int), combineAxes_acc l' ((j : Int) - b)]
        rw [hprod] at hlt ⊢
        generalize ((post.map (·.action)).map (·.extent)).prod = P at *
        generalize combineAxes (l'.map fun p => (p.1, some p.2)) 0 = q at *
        have hP : 0 ≤ P := by omega
        have h1 : 0 ≤ ((j : Int) - b) * P := Int.mul_nonneg (by omega) hP
        have h2 : ((j : Int) - b + 1) * P ≤ ((e : Int) - b - 1) * P := Int.mul_le_mul_of_nonneg_right (by omega) hP
        have e1 : ((j : Int) - b + 1) * P = ((j : Int) - b) * P + P := by ring
        have e2 : (b : Int) * P + (((j : Int) - b) * P + q) = j * P + q := by ring
        have h3 : 0 ≤ (j : Int) * P := Int.mul_nonneg (by omega) hP
        refine ⟨fun h => by omega, fun _ => ⟨e2, by omega, by omega⟩⟩

theorem prod_eq_one_all : ∀ (l : List Int), (∀ n ∈ l, 0 ≤ n) → l.prod = 1 → ∀ n ∈ l, n = 1
  | [], _, _, n, hn => by simp at hn
  | a :: l, h, hp, n, hn => by
    rw [List.prod_cons] at hp
    have ha := h a (by simp)
    have ha1 : a = 1 := by
      rcases Int.eq_one_or_neg_one_of_mul_eq_one hp with h1 | h1 <;> omega
    rw [ha1, one_mul] at hp
    rcases List.mem_cons.1 hn with rfl | hn
    · exact ha1
    · exact prod_eq_one_all l (fun m hm => h m (by simp [hm])) hp n hn

theorem buildLoop_append (V : Int) (guess' : List α → α → Int) (acts1 acts2 : List (BuildAction α γ)) (s : BuildState) :
    buildLoop V guess' (acts1 ++ acts2) s =
      match buildLoop V guess' acts1 s with
      | .error err => .error err
      | .ok s => buildLoop V guess' acts2 s := by
  induction acts1 generalizing s with
  | nil => rfl
  | cons a acts1 ih =>
    simp only [List.cons_append, buildLoop]
    cases buildStep V guess' s a with
    | error e => rfl
    | ok s' => exact ih s'

theorem first_existing (V : Int) : ∀ (acts : List (BuildAction α γ)), (∀ a ∈ acts, ∀ p, a.action ≠ .existing V p) ∨
    ∃ pre p rel post, acts = pre ++ ⟨.existing V p, rel⟩ :: post ∧ ∀ a ∈ pre, ∀ p, a.action ≠ .existing V p
  | [] => .inl (by simp)
  | a :: acts => by
    by_cases h : ∃ p, a.action = .existing V p
    · obtain ⟨p, hp⟩ := h
      refine .inr ⟨[], p, a.relevant, acts, ?_, by simp⟩
      rw [← hp]; rfl
    · rcases first_existing V acts with h1 | ⟨pre, p, rel, post, h1, h2⟩
      · refine .inl fun b hb q hq => ?_
        rcases List.mem_cons.1 hb with rfl | hb
        · exact h ⟨q, hq⟩
        · exact h1 b hb q hq
      · refine .inr ⟨a :: pre, p, rel, post, by rw [h1]; rfl, fun b hb q hq => ?_⟩
        rcases List.mem_cons.1 hb with rfl | hb
        · exact h ⟨q, hq⟩
        · exact h2 b hb q hq

theorem forall₂_split {β δ : Type} {R : β → δ → Prop} : ∀ (l m : List β) {rs : List δ}, List.Forall₂ R (l ++ m) rs →
    ∃ a b, List.Forall₂ R l a ∧ List.Forall₂ R m b ∧ rs = a ++ b
  | [], m, rs, h => ⟨[], rs, .nil, h, rfl⟩
  | x :: l, m, rs, h => by
    obtain ⟨r, rs', h1, h2, rfl⟩ := List.forall₂_cons_left_iff.1 h
    obtain ⟨a, b, h3, h4, rfl⟩ := forall₂_split l m h2
    exact ⟨r :: a, b, .cons h1 h3, h4, rfl⟩

theorem forall₂_mem_left {β δ : Type} {R : β → δ → Prop} {l : List β} {rs : List δ} (h : List.Forall₂ R l rs) {x : β} (hx : x ∈ l) :
    ∃ r, R x r := by
  induction h with
  | nil => simp at hx
  | cons h1 _ ih =>
    rcases List.mem_cons.1 hx with rfl | hx
    · exact ⟨_, h1⟩
    · exact ih hx

theorem combineAxes_one_axes {as : List (AxisAction α γ)} {rs : List (Option Nat)}
    (h : List.Forall₂ (fun a r => Valid a ∧ Assigned a r) as rs) (h1 : ∀ n ∈ as.map (·.extent), n = 1) :
    (∃ p ∈ (as.map (·.extent)).zip rs, p.2 = none) ∨ ∀ acc, combineAxes ((as.map (·.extent)).zip rs) acc = acc := by
  induction h with
  | nil => exact .inr fun _ => rfl
  | @cons a r as rs h _ ih =>
    have ha : a.extent = 1 := h1 _ (by simp)
    cases r with
    | none => exact .inl ⟨(a.extent, none), by simp, rfl⟩
    | some i =>
      have hi := (update_spec a h.1 _ h.2 0).2 i rfl
      rcases ih (fun n hn => h1 n (by simp only [List.map_cons, List.mem_cons]; exact .inr hn)) with ⟨p, hp, h2⟩ | h2
      · exact .inl ⟨p, by simp only [List.map_cons, List.zip_cons_cons, List.mem_cons]; exact .inr hp, h2⟩
      · refine .inr fun acc => ?_
        simp only [List.map_cons, List.zip_cons_cons, combineAxes]
        rw [h2, ha]; omega

/-- **C25** (existing dimensions): without restricted bins, offset plus index is the row-major output bin of the event and the index
lies in the range reserved for the input bin, which is a range of output bins. In particular the shortcut taken when an existing dimension has all output
bins, which puts the events of each input bin into the output bin at its position without looking at the events' index, is
correct; and it is only taken then. -/
theorem C25_existing (guess' : List α → α → Int) (acts : List (BuildAction α γ)) (rs : List (Option Nat))
    (hrel : ∀ a ∈ acts, a.relevant = none)
    (hv : List.Forall₂ (fun a r => Valid a ∧ Assigned a r) (acts.map (·.action)) rs) :
    ∃ s, build guess' acts = .ok s ∧ (0 ≤ s.offset ∧ s.offset + s.nbin ≤ (acts.map fun a => a.action.extent).prod) ∧
      let total := combineAxes ((acts.map (·.action.extent)).zip rs) 0
      (total = -1 → s.index = -1) ∧ (total ≠ -1 → s.offset + s.index = total ∧ 0 ≤ s.index ∧ s.index < s.nbin) := by
  have hmap : ∀ l : List (BuildAction α γ), l.map (fun a => a.action.extent) = (l.map (·.action)).map (·.extent) := by simp
  simp only [build]
  generalize hV : (acts.map fun a => a.action.extent).prod = V
  rcases first_existing V acts with hno | ⟨pre, q, rel, post, rfl, hpre⟩
  · refine ⟨_, buildLoop_plain V guess' acts ⟨0, 0, V, false⟩ (.inr fun a ha => ⟨hrel a ha, hno a ha⟩) _
      (C23_row_major _ _ hv 0 (le_refl _)), ⟨le_refl _, by simp⟩, ?_⟩
    simp only [hmap, zero_add, true_and, imp_self]
    intro h
    by_cases hn : ∃ p ∈ ((acts.map (·.action)).map (·.extent)).zip rs, p.2 = none
    · exact absurd (combineAxes_none _ _ hn) h
    · obtain ⟨l', hl'⟩ := somes_of_not_none _ hn
      have hmem := zip_mem_spec _ _ hv
      have h1 : l'.map (·.1) = (acts.map (·.action)).map (·.extent) := by
        have h1 := congrArg (List.map Prod.fst) hl'
        rw [List.map_fst_zip (by rw [List.length_map, forall₂_length hv])] at h1
        rw [h1, List.map_map]; rfl
      rw [hl'] at hmem ⊢
      have := C23_in_range l' (fun p hp => hmem (p.1, some p.2) (List.mem_map.mpr ⟨p, hp, rfl⟩) p.2 rfl)
      rw [h1, ← hmap, hV] at this
      exact this
  · rw [List.map_append, List.map_cons] at hv
    obtain ⟨rpre, rrest, hvpre, hvrest, rfl⟩ := forall₂_split _ _ hv
    obtain ⟨r, rpost, hr, hvpost, rfl⟩ := List.forall₂_cons_left_iff.1 hvrest
    obtain ⟨hq, i, rfl, rfl⟩ := hr
    have hq : 0 ≤ (i : Int) ∧ (i : Int) < V := hq
    have hnn : ∀ {l : List (BuildAction α γ)} {rl}, List.Forall₂ (fun a r => Valid a ∧ Assigned a r) (l.map (·.action)) rl →
        ∀ n ∈ l.map (fun a => a.action.extent), 0 ≤ n := by
      intro l rl h n hn
      obtain ⟨a, ha, rfl⟩ := List.mem_map.1 hn
      obtain ⟨r, hr⟩ := forall₂_mem_left h (List.mem_map_of_mem (f := (·.action)) ha)
      exact extent_nonneg _ hr.1
    have hone : ((pre ++ post).map fun a => a.action.extent).prod = 1 := by
      rw [List.map_append, List.prod_append, List.map_cons, List.prod_cons] at hV
      rw [List.map_append, List.prod_append]
      have e : (pre.map fun a => a.action.extent).prod * (V * (post.map fun a => a.action.extent).prod) =
        V * ((pre.map fun a => a.action.extent).prod * (post.map fun a => a.action.extent).prod) := by ring
      have hV' : V * ((pre.map fun a => a.action.extent).prod * (post.map fun a => a.action.extent).prod) = V * 1 := by
        rw [← e, mul_one]; exact hV
      exact Int.eq_of_mul_eq_mul_left (by omega) hV'
    have hall := prod_eq_one_all _ (by
      intro n hn
      rw [List.map_append, List.mem_append] at hn
      exact hn.elim (hnn hvpre n) (hnn hvpost n)) hone
    have hp1 := combineAxes_one_axes hvpre (fun n hn => hall n (by rw [List.map_append, List.mem_append, hmap]; exact .inl hn))
    have hp2 := combineAxes_one_axes hvpost (fun n hn => hall n (by rw [List.map_append, List.mem_append, hmap post]; exact .inr hn))
    have hlen : (pre.map fun a => a.action.extent).length = rpre.length := by
      have := forall₂_length hvpre
      simpa using this
    rw [buildLoop_append, buildLoop_plain V guess' pre ⟨0, 0, V, false⟩
      (.inr fun a ha => ⟨hrel a (by simp [ha]), hpre a ha⟩) _ (C23_row_major _ _ hvpre 0 (le_refl _))]
    simp only [buildLoop, buildStep, true_and, if_true]
    rw [List.map_append, List.map_cons, List.zip_append hlen, List.zip_cons_cons, hmap, hmap]
    rw [combineAxes_append]
    rcases hp1 with hp1 | hp1
    · rw [combineAxes_none _ _ hp1, if_pos hp1]
      exact ⟨_, buildLoop_plain V guess' post _ (.inl rfl) (-1) (runActions_minus_one _ _ hvpost), ⟨hq.1, by simp only; omega⟩, by simp, by simp⟩
    · have hn1 : ¬ ∃ p ∈ ((pre.map (·.action)).map (·.extent)).zip rpre, p.2 = none := by
        intro h
        have := combineAxes_none _ 0 h
        rw [hp1] at this
        omega
      rw [if_neg hn1, hp1]
      refine ⟨_, buildLoop_plain V guess' post _ (.inl rfl) _ (C23_row_major _ _ hvpost 0 (le_refl _)), ⟨hq.1, by simp only; omega⟩, ?_⟩
      simp only [combineAxes]
      rcases hp2 with hp2 | hp2
      · rw [combineAxes_none _ _ hp2, combineAxes_none _ _ hp2]
        simp
      · rw [hp2, hp2]
        simp

/-- Grouping into two groups and then binning along an existing dimension with sorted bin-edge coordinate: the event with group 0 and
coordinate in the second bin is put into bin 2, that of group 1 and the first bin, instead of bin 1. -/
theorem C25_wrong_after_group :
    let edges : List Int := [0, 1, 2]
    (relevantBins edges [0, 1, 2] 1 = some (1, 3)) ∧
    (build (γ := String) (fun _ _ => 0) [⟨.group ["a", "b"] "a", none⟩, ⟨.bin edges false (fun _ => 0) (some 1),
        some (1, 3, false)⟩] = .ok ⟨0, 2, 2, true⟩) ∧
    runActions (γ := String) [.group ["a", "b"] "a", .bin edges false (fun _ => 0) (some (1 : Int))] 0 = .ok 1 := by
  decide

/-- Two restricted axes with scalar coordinates: the offset for the first axis is overwritten. -/
theorem C25_wrong_for_two_scalars :
    let edges : List Int := [0, 1, 2]
    (relevantBins edges [1, 2] 0 = some (1, 3)) ∧
    (build (γ := String) (fun _ _ => 0) [⟨.bin edges false (fun _ => 0) (some 1), some (1, 3, true)⟩,
        ⟨.bin edges false (fun _ => 0) (some 1), some (1, 3, true)⟩] = .ok ⟨0, 2, 2, false⟩) ∧
    runActions (γ := String) [.bin edges false (fun _ => 0) (some (1 : Int)),
      .bin edges false (fun _ => 0) (some (1 : Int))] 0 = .ok 3 := by
  decide

/-- An empty input bin (both edges 1) and output edges that contain 1 twice: the number of relevant output bins is negative, so that `counts(nbin)` (`bin.h` 197) requests a
vector of negative size. -/
theorem C25_negative_size :
    let edges : List Int := [0, 1, 1, 2]
    (relevantBins edges [1, 1] 0 = some (2, 2)) ∧
    (build (γ := String) (fun _ _ => 0) [⟨.bin edges false (fun _ => 0) none, some (2, 2, false)⟩]).map BuildState.nbin = .ok (-1) := by
  decide

/-- Four input bins along an existing dimension: all output bins, or combined with two groups. -/
example :
    build (α := Int) (γ := String) (fun _ _ => 0) [⟨.group ["a"] "a", none⟩, ⟨.existing 4 2, none⟩] = .ok ⟨0, 2, 1, true⟩ ∧
    build (α := Int) (γ := String) (fun _ _ => 0) [⟨.existing 4 2, none⟩, ⟨.group ["a", "b"] "b", none⟩] = .ok ⟨5, 0, 8, false⟩ := by
  decide

/-- A case meeting the hypotheses: three input bins, the second is `[2, 5)`, and an event at 3. -/
example :
    let edges : List Int := [0, 1, 4, 6]
    (relevantBins edges [0, 2, 5, 8] 1 = some (1, 4)) ∧
    (build (γ := String) (fun _ _ => 0) [⟨.bin edges false (fun _ => 0) (some 3), some (1, 4, false)⟩,
        ⟨.group ["a", "b"] "b", none⟩] = .ok ⟨1, 2, 4, true⟩) ∧
    runActions (γ := String) [.bin edges false (fun _ => 0) (some (3 : Int)), .group ["a", "b"] "b"] 0 = .ok 3 := by
  decide

end Scipp.Props
