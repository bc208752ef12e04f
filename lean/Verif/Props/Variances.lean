import Verif.Lemmas.Variances
import Verif.Lemmas.Transform2
/-!
# C31: variances are never broadcast silently

An operand is read at its address `view.addr c` for the output element with coordinates `c`
(C12). So "one element is applied to two different output elements" means that two different
output coordinates have the same operand address.
-/
namespace Scipp.Props
open Scipp Sizes

/-- An operand as it occurs: its view was derived by any sequence of view operations from
a buffer of some length, and has real dimension labels. -/
def GoodInfo (o : VarInfo) : Prop := (∃ n, ViewOf n o.view) ∧ Dim.invalid ∉ labels o.view.dims

theorem labels_nodup_perm {a b : Dims} (ha : WF a) (hb : WF b) (hi : ∀ p ∈ a, p ∈ b)
    (hl : b.length ≤ a.length) : ∀ d ∈ labels b, d ∈ labels a := by
  have hsub : labels a ⊆ labels b := labels_subset hi
  have h := (ha.1.subperm hsub).perm_of_length_le (by simpa using hl)
  intro d hd
  exact h.mem_iff.2 hd

theorem not_bad_distinct {dims : Dims} {o : VarInfo} (hg : GoodInfo o) (hd : WF dims)
    (hi : ∀ p ∈ o.view.dims, p ∈ dims) (hv : o.hasVar = true) (hb : badVarianceBroadcast dims o = false)
    {c c' : Dim → Int} (hc : InDims dims c) (hc' : InDims dims c') (he : o.view.addr c = o.view.addr c') :
    (∀ d ∈ labels dims, d ∈ labels o.view.dims) ∧ ∀ d ∈ labels dims, c d = c' d := by
  obtain ⟨⟨n, hn⟩, _⟩ := hg
  have hw := viewOf_WF hn
  simp only [badVarianceBroadcast, hv, Bool.true_eq_false, if_false] at hb
  by_cases hl : o.view.dims.length < dims.length
  · rw [if_pos hl] at hb; simp at hb
  rw [if_neg hl] at hb
  have hpos := position_bounds hc
  rw [if_neg (by omega)] at hb
  have hs : ∀ s ∈ o.view.strides, s ≠ 0 := by
    intro s hs h0
    rw [List.any_eq_false] at hb
    exact hb s hs (by simp [h0])
  have hlab := labels_nodup_perm hw.1 hd hi (by omega)
  have hin : ∀ c, InDims dims c → InDims o.view.dims c := fun c hc d n hm => hc d n (hi _ hm)
  exact ⟨hlab, fun d hd' => (viewOf_zeroShared hn).distinct hw hs c c' (hin c hc) (hin c' hc') he d (hlab d hd')⟩

theorem transformChecks_ok {a : VarInfo} {others : List VarInfo} {dims : Dims}
    (h : transformChecks false a others = .ok dims) :
    mergeAll a.view.dims (others.map (fun o => o.view.dims)) = .ok dims ∧
    (∀ o ∈ a :: others, badVarianceBroadcast dims o = false) ∧
    ¬ ((∃ o ∈ a :: others, o.isBins = true) ∧ ∃ o ∈ a :: others, o.denseVar = true) := by
  simp only [transformChecks] at h
  split at h
  · simp at h
  rename_i dims' hm
  simp only [Bool.false_eq_true, if_false] at h
  by_cases h1 : (a :: others).any (badVarianceBroadcast dims') = true
  · rw [if_pos h1] at h; simp at h
  rw [if_neg h1] at h
  by_cases h2 : ((a :: others).any (fun o => o.isBins) && (a :: others).any VarInfo.denseVar) = true
  · rw [if_pos h2] at h; simp at h
  rw [if_neg h2] at h
  injection h with h
  subst h
  refine ⟨hm, ?_, ?_⟩
  · intro o ho
    simp only [List.any_eq_true, not_exists, not_and, Bool.not_eq_true] at h1
    exact h1 o ho
  · rintro ⟨⟨o, ho, hb⟩, ⟨o', ho', hb'⟩⟩
    apply h2
    rw [Bool.and_eq_true, List.any_eq_true, List.any_eq_true]
    exact ⟨⟨o, ho, hb⟩, ⟨o', ho', hb'⟩⟩

/-- **C31** (new output): if an elementwise operation is accepted, every operand with
variances has all dims of the output, and any two output elements that read the same element
of it are the same output element. -/
theorem C31_transform (a : VarInfo) (others : List VarInfo) (dims : Dims)
    (hg : ∀ o ∈ a :: others, GoodInfo o) (h : transformChecks false a others = .ok dims)
    (o : VarInfo) (ho : o ∈ a :: others) (hv : o.hasVar = true) (c c' : Dim → Int)
    (hc : InDims dims c) (hc' : InDims dims c') (he : o.view.addr c = o.view.addr c') :
    (∀ d ∈ labels dims, d ∈ labels o.view.dims) ∧ ∀ d ∈ labels dims, c d = c' d := by
  obtain ⟨hm, hb, _⟩ := transformChecks_ok h
  have hwf : ∀ o ∈ a :: others, WF o.view.dims ∧ Dim.invalid ∉ labels o.view.dims := by
    intro o ho
    obtain ⟨⟨n, hn⟩, hinv⟩ := hg o ho
    exact ⟨(viewOf_WF hn).1, hinv⟩
  obtain ⟨hd, _, hcont⟩ := mergeAll_ok (hwf a (by simp)).1 (hwf a (by simp)).2 (by
    intro b hb
    obtain ⟨o, ho, rfl⟩ := List.mem_map.1 hb
    exact hwf o (List.mem_cons_of_mem _ ho)) hm
  have hi : ∀ p ∈ o.view.dims, p ∈ dims := by
    intro p hp
    rw [hcont]
    rcases List.mem_cons.1 ho with rfl | ho
    · exact .inl hp
    · exact .inr ⟨_, List.mem_map.2 ⟨o, ho, rfl⟩, hp⟩
  exact not_bad_distinct (hg o ho) hd hi hv (hb o ho) hc hc' he

/-- **C31** (bins, new output): an element with variances is never applied to all events of a
bin: if any operand is binned, every operand with variances is binned. -/
theorem C31_transform_bins (a : VarInfo) (others : List VarInfo) (dims : Dims)
    (h : transformChecks false a others = .ok dims) (hb : ∃ o ∈ a :: others, o.isBins = true)
    (o : VarInfo) (ho : o ∈ a :: others) (hv : o.hasVar = true) : o.isBins = true := by
  obtain ⟨_, _, hn⟩ := transformChecks_ok h
  cases hb' : o.isBins with
  | true => rfl
  | false => exact absurd ⟨hb, o, ho, by simp [VarInfo.denseVar, hv, hb']⟩ hn

theorem inPlaceChecks_ok {t : VarInfo} {others : List VarInfo}
    (h : inPlaceChecks false t others = .ok ()) :
    (∀ o ∈ others, Sizes.includes t.view.dims o.view.dims = true) ∧
    (∃ dims, mergeAll t.view.dims (others.map (fun o => o.view.dims)) = .ok dims ∧
      ∀ o ∈ others, badVarianceBroadcast dims o = false) ∧
    (t.isBins = false → ∀ o ∈ others, o.isBins = false) ∧
    ¬ ((t.isBins = true ∨ ∃ o ∈ others, o.isBins = true) ∧ ∃ o ∈ others, o.denseVar = true) := by
  simp only [inPlaceChecks] at h
  by_cases h1 : (others.any (fun o => !Sizes.includes t.view.dims o.view.dims)) = true
  · rw [if_pos h1] at h; simp at h
  rw [if_neg h1] at h
  by_cases h2 : (!t.isBins && others.any (fun o => o.isBins)) = true
  · rw [if_pos h2] at h; simp at h
  rw [if_neg h2] at h
  simp only [Bool.false_eq_true, if_false] at h
  split at h
  · simp at h
  rename_i dims hm
  by_cases h3 : (others.any (badVarianceBroadcast dims)) = true
  · rw [if_pos h3] at h; simp at h
  rw [if_neg h3] at h
  by_cases h4 : ((t.isBins || others.any (fun o => o.isBins)) && others.any VarInfo.denseVar) = true
  · rw [if_pos h4] at h; simp at h
  simp only [List.any_eq_true, not_exists, not_and, Bool.not_eq_true] at h1 h3
  refine ⟨fun o ho => by simpa using h1 o ho, ⟨dims, hm, h3⟩, ?_, ?_⟩
  · intro ht o ho
    cases hob : o.isBins with
    | false => rfl
    | true =>
      exact absurd (by rw [ht, Bool.not_false, Bool.true_and, List.any_eq_true]; exact ⟨o, ho, hob⟩) h2
  · rintro ⟨hb, o', ho', hd'⟩
    apply h4
    rw [Bool.and_eq_true, Bool.or_eq_true, List.any_eq_true, List.any_eq_true]
    exact ⟨hb, o', ho', hd'⟩

/-- **C31** (in place): likewise for the operands of an in-place operation; the output
elements are those of the target. -/
theorem C31_in_place (t : VarInfo) (others : List VarInfo) (ht : GoodInfo t)
    (hg : ∀ o ∈ others, GoodInfo o) (h : inPlaceChecks false t others = .ok ())
    (o : VarInfo) (ho : o ∈ others) (hv : o.hasVar = true) (c c' : Dim → Int)
    (hc : InDims t.view.dims c) (hc' : InDims t.view.dims c') (he : o.view.addr c = o.view.addr c') :
    (∀ d ∈ labels t.view.dims, d ∈ labels o.view.dims) ∧ ∀ d ∈ labels t.view.dims, c d = c' d := by
  obtain ⟨hinc, ⟨dims, hm, hb⟩, _⟩ := inPlaceChecks_ok h
  obtain ⟨⟨nt, hnt⟩, htinv⟩ := ht
  have hwt := (viewOf_WF hnt).1
  have hwf : ∀ o ∈ others, WF o.view.dims := by
    intro o ho
    obtain ⟨⟨n, hn⟩, _⟩ := hg o ho
    exact (viewOf_WF hn).1
  have hi : ∀ o ∈ others, ∀ p ∈ o.view.dims, p ∈ t.view.dims := fun o ho =>
    (includes_iff hwt.1 (hwf o ho).1).1 (hinc o ho)
  have hdims : dims = t.view.dims := by
    rw [mergeAll_of_includes hwt htinv (by
      intro b hb
      obtain ⟨o, ho, rfl⟩ := List.mem_map.1 hb
      exact ⟨hwf o ho, hi o ho⟩)] at hm
    injection hm with hm; exact hm.symm
  subst hdims
  exact not_bad_distinct (hg o ho) hwt (hi o ho) hv (hb o ho) hc hc' he

/-- **C31** (bins, in place): with a binned target, operands with variances are binned; with a
dense target all operands are dense. -/
theorem C31_in_place_bins (t : VarInfo) (others : List VarInfo)
    (h : inPlaceChecks false t others = .ok ()) (o : VarInfo) (ho : o ∈ others) :
    (t.isBins = true → o.hasVar = true → o.isBins = true) ∧ (t.isBins = false → o.isBins = false) := by
  obtain ⟨_, _, h3, h4⟩ := inPlaceChecks_ok h
  refine ⟨fun hb hv => ?_, fun hb => h3 hb o ho⟩
  cases hb' : o.isBins with
  | true => rfl
  | false => exact absurd ⟨.inl hb, o, ho, by simp [VarInfo.denseVar, hv, hb']⟩ h4

/-- **C31** (no needless errors): without variances the checks reject nothing but dims that
cannot be merged, and operands with variances that have all dims of the output and no
stride zero are accepted. -/
theorem C31_accepted (a : VarInfo) (others : List VarInfo) (dims : Dims)
    (hm : mergeAll a.view.dims (others.map (fun o => o.view.dims)) = .ok dims)
    (h : ∀ o ∈ a :: others, o.hasVar = true →
      o.view.dims.length = dims.length ∧ (∀ s ∈ o.view.strides, s ≠ 0) ∧ ∀ o' ∈ a :: others, o'.isBins = o.isBins) :
    transformChecks false a others = .ok dims := by
  simp only [transformChecks, hm, Bool.false_eq_true, if_false]
  have h1 : ¬ (a :: others).any (badVarianceBroadcast dims) = true := by
    rw [List.any_eq_true]
    rintro ⟨o, ho, hb⟩
    cases hv : o.hasVar with
    | false => simp [badVarianceBroadcast, hv] at hb
    | true =>
      obtain ⟨hl, hs, _⟩ := h o ho hv
      simp only [badVarianceBroadcast, hv, Bool.true_eq_false, if_false] at hb
      rw [if_neg (by omega)] at hb
      split at hb
      · simp at hb
      · rw [List.any_eq_true] at hb
        obtain ⟨s, hs', h0⟩ := hb
        exact hs s hs' (by simpa using h0)
  have h2 : ¬ ((a :: others).any (fun o => o.isBins) && (a :: others).any VarInfo.denseVar) = true := by
    rw [Bool.and_eq_true, List.any_eq_true, List.any_eq_true]
    rintro ⟨⟨o, ho, hb⟩, ⟨o', ho', hd⟩⟩
    simp only [VarInfo.denseVar, Bool.and_eq_true, Bool.not_eq_true'] at hd
    have := (h o' ho' hd.1).2.2 o ho
    rw [hb, hd.2] at this
    simp at this
  rw [if_neg h1, if_neg h2]

/-- A 2-d operand with variances (transposed and sliced) and a 1-d one without. -/
def exVar : VarInfo := ⟨⟨[(4, 2), (5, 3)], [2, 4], 1, false⟩, true, false⟩
/-- See `exVar`. -/
def exNoVar : VarInfo := ⟨View.fresh [(4, 2)], false, false⟩

theorem exVar_good : GoodInfo exVar := by
  refine ⟨⟨12, ?_⟩, by decide⟩
  have h0 : ViewOf 12 (View.fresh [(3, 12)]) := .fresh (by simp [Sizes.WF]) (by decide)
  have h1 : ViewOf 12 ⟨[(5, 3), (4, 4)], [4, 1], 0, false⟩ := .fold (t := [(5, 3), (4, 4)]) (d := 3) h0 (by decide)
  have h2 : ViewOf 12 ⟨[(5, 3), (4, 2)], [4, 2], 1, false⟩ :=
    .slice (p := ⟨4, 1, 4, 2⟩) h1 (.inl (by decide)) (by decide)
  exact .transpose (o := [4, 5]) h2 (by decide)

theorem exNoVar_good : GoodInfo exNoVar :=
  ⟨⟨2, .fresh (by simp [Sizes.WF]) (by decide)⟩, by decide⟩

example := C31_transform exNoVar [exVar] [(4, 2), (5, 3)]
  (by intro o ho; simp only [List.mem_cons, List.not_mem_nil, or_false] at ho; rcases ho with rfl | rfl; exacts [exNoVar_good, exVar_good])
  (by decide) exVar (by simp) rfl
example := C31_transform_bins ⟨View.fresh [(4, 2)], true, true⟩ [⟨View.fresh [(4, 2)], false, false⟩] [(4, 2)] (by decide)
  ⟨_, List.mem_cons_self .., rfl⟩ ⟨View.fresh [(4, 2)], true, true⟩ (by simp) rfl
example := C31_in_place exVar [exVar] exVar_good (by intro o ho; rw [List.mem_singleton.mp ho]; exact exVar_good) (by decide) exVar
  (by simp) rfl
example := C31_in_place_bins ⟨View.fresh [(4, 2)], true, true⟩ [⟨View.fresh [(4, 2)], false, false⟩] (by decide) _ (List.mem_singleton.mpr rfl)
example := C31_accepted exNoVar [exVar] [(4, 2), (5, 3)] (by decide) (by decide)

/-- The hypotheses are met: the operation is accepted, with either operand first. -/
example : transformChecks false exNoVar [exVar] = .ok [(4, 2), (5, 3)] ∧
    inPlaceChecks false exVar [exNoVar] = .ok () ∧
    inPlaceChecks false exVar [exVar] = .ok () := by decide

/-- Both kinds of broadcast are rejected: implicit, and by a stride of zero. -/
example : transformChecks false exVar [⟨View.fresh [(4, 2)], true, false⟩] = .error .variances ∧
    transformChecks false exVar [⟨⟨[(4, 2), (5, 3)], [1, 0], 0, true⟩, true, false⟩] = .error .variances ∧
    inPlaceChecks false exVar [⟨View.fresh [(4, 2)], true, false⟩] = .error .variances ∧
    transformChecks false ⟨View.fresh [(4, 2)], true, true⟩ [⟨View.fresh [(4, 2)], true, false⟩] = .error .variances ∧
    transformChecks false ⟨View.fresh [(4, 2)], true, true⟩ [exNoVar] = .ok [(4, 2)] := by decide

/-- The check is stricter than needed: a stride of zero in a dim of length 1 (from an
explicit broadcast) is rejected though no element is used twice. -/
theorem C31_stricter_than_needed :
    transformChecks false ⟨⟨[(4, 1), (5, 3)], [0, 1], 0, false⟩, true, false⟩ [] = .error .variances ∧
    (⟨[(4, 1), (5, 3)], [0, 1], 0, false⟩ : View).Distinct ∧
    ViewOf 3 ⟨[(4, 1), (5, 3)], [0, 1], 0, false⟩ := by
  refine ⟨by decide, ?_, ?_⟩
  · intro c c' hc hc' he d hd
    have h4 := hc 4 1 (by simp)
    have h4' := hc' 4 1 (by simp)
    simp only [View.addr, addrAux_cons, addrAux_nil] at he
    simp only [labels_cons, labels_nil, List.mem_cons, List.not_mem_nil, or_false] at hd
    rcases hd with rfl | rfl <;> omega
  · have h0 : ViewOf 3 (View.fresh [(5, 3)]) := .fresh (by simp [Sizes.WF]) (by decide)
    exact .broadcast (t := [(4, 1), (5, 3)]) h0 (by simp [Sizes.WF]) (by decide)

end Scipp.Props
