import Verif.Lemmas.HistArray
/-
Property C85: histogramming data with several dims and any memory layout, with masks.
-/
namespace Scipp.Props
open Scipp Sizes Spec Hist
variable {α : Type} [LinearOrder α] {W : Type} [AddCommMonoid W]

/-- **C85** (dense data): at every position of the other dims, bin `k` of the histogram is the sum of the weights of the elements along the dim of the coord whose coordinate is in bin `k`; masked elements
count as zero. This holds for any order of dims and any memory layout of data, coord and edges, if the coord or the edges depend on other dims, and whether or not the data is split for threading.
Not covered are bin-edge coords for a dim with another name: see `C85_edges_out_of_bounds`. -/
theorem C85_dense_partial (lin : List α → Bool) (guess : List α → α → Int) (data : Var W) (u : Nat) (masks : List (Dim × MaskVar)) (coord : Coord (Option α)) (edges : Coord α)
    (dim eventDim : Dim) (n m : Int) (h : Countable data eventDim n coord.x dim) (hm : MasksOk masks data.view.dims)
    (he : EdgesOk lin guess edges.x dim m (data.view.dims.filter (·.1 ≠ eventDim))) (hu : coord.unit = edges.unit) :
    ∃ r, histogramArray lin guess data u masks coord edges = .ok r ∧ r.dims.Perm (data.view.dims.filter (·.1 ≠ eventDim) ++ [(dim, m)]) ∧ r.unit = u ∧
      ∀ c, InDims r.dims c →
        r.elem c = weightWhere (InBin (row edges.x dim (m + 1) c) (c dim).toNat) (eventsAlong coord.x data masks eventDim n c) := by
  have hfi : Dim.invalid ∉ labels (data.view.dims.filter (·.1 ≠ eventDim)) := fun hc => h.valid (labels_mono (fun p hp => List.mem_of_mem_filter hp) _ hc)
  have hei : Dim.invalid ∉ labels edges.x.view.dims := he.notInvalid hfi
  have hci : Dim.invalid ∉ labels coord.x.view.dims := fun hc => h.valid (labels_mono h.coord_fits _ hc)
  obtain ⟨e, e1, e2, e3, e4, e5⟩ := C62_as_contiguous edges.x he.wf hei dim (m + 1) he.along
  obtain ⟨x, x1, x2, x3, x4, _⟩ := dataMasked_ok h.wf h.valid hm eventDim
  have hxi : Dim.invalid ∉ labels x.view.dims := fun hc => h.valid ((x3.map _).mem_iff.1 hc)
  obtain ⟨w, w1, w2, w3, w4, w5⟩ := C62_as_contiguous x x2 hxi eventDim n (x3.mem_iff.2 h.along)
  obtain ⟨c, c1, c2, c3, c4, c5⟩ := C62_as_contiguous coord.x h.coord_wf hci eventDim n h.coord_along
  have hwd : w.view.dims.Perm data.view.dims := w4.trans x3
  have hcount : Countable w eventDim n c dim := by
    refine ⟨w2, fun hc => h.valid ((hwd.map _).mem_iff.1 hc), hwd.mem_iff.2 h.along, c2, c4.mem_iff.2 h.coord_along, fun p hp => hwd.mem_iff.2 (h.coord_fits p (c4.mem_iff.1 hp)), ?_,
      fun hd => h.once ((hwd.map _).mem_iff.1 hd)⟩
    rw [c4.length_eq]
    exact h.coord_dim
  have hef : ∀ c, InDims (e.view.dims.filter (·.1 ≠ dim)) c → InDims (edges.x.view.dims.filter (·.1 ≠ dim)) c := fun c hc => inDims_perm (e4.filter _) hc
  have hrow : ∀ c, InDims (e.view.dims.filter (·.1 ≠ dim)) c → row e dim (m + 1) c = row edges.x dim (m + 1) c := fun c hc => he.same e4 e5 (hef c hc)
  obtain ⟨r, r1, r2, r3, r4⟩ := dense_ok (lin := lin) (guess := guess) (split := decide (x.view.dims.length = 1 ∧ Dims.volume x.view.dims > 100000)) (u := u)
    (coord := { coord with x := c }) (edges := { edges with x := e }) (m := m) hcount w3 c3 e2 (e4.mem_iff.2 he.along) e3 he.nonneg he.valid
    (fun p hp hne => (hwd.filter _).mem_iff.2 (he.others p (e4.mem_iff.1 hp) hne))
    (fun c hc => by simp only; rw [hrow c hc]; exact he.sorted c (hef c hc))
    (fun c hc => by simp only; rw [hrow c hc]; exact he.lin (hef c hc)) hu
  refine ⟨r, ?_, r2.trans ((hwd.filter _).append_right _), r3, fun p hp => ?_⟩
  · simp only [histogramArray, he.inner, e1, not_histogram h, dimOf_eq h, x1, w1, c1, r1, bind, Except.bind, Bool.false_eq_true, if_false]
  · have hp' : InDims (data.view.dims.filter (·.1 ≠ eventDim)) p := fun d k hk => hp d k (r2.mem_iff.2 (by
      rw [List.mem_append]
      exact .inl ((hwd.filter _).mem_iff.2 hk)))
    have hpe : InDims (edges.x.view.dims.filter (·.1 ≠ dim)) p := by
      intro d k hk
      simp only [List.mem_filter, decide_eq_true_eq] at hk
      exact hp' d k (he.others _ hk.1 hk.2)
    rw [r4 p hp, he.same e4 e5 hpe]
    congr 1
    simp only [row, eventsAlong, List.zip_map', Function.comp]
    apply List.map_congr_left
    intro i hi
    simp only [List.mem_range] at hi
    have h1 := upd_in h.wf.1.1 h.along hp' (i := i) (by omega) (by omega)
    have h2 := upd_in h.coord_wf.1.1 h.coord_along (others_in (fun p hp _ => h.coord_fits p hp) hp') (i := i) (by omega) (by omega)
    rw [w5 _ (inDims_perm x3.symm h1), x4 _ h1, c5 _ h2]

/-- **C85** (binned data): if the bins depend on the dim of the edges, bin `k` of the histogram is the sum of the weights of all events with coordinate in bin `k` in any of the bins along that dim that are not
masked; otherwise every bin gives its own histogram. Masked events count as zero. This holds however many bins there are: whether or not bins are concatenated first. -/
theorem C85_binned (lin : List α → Bool) (guess : List α → α → Int) (b : Binned α W) (N : Int) (hb : BinnedOk b N) (masks : List (Dim × MaskVar)) (hm : MasksOk masks b.indices.dims) (edges : Coord α)
    (dim : Dim) (m : Int) (he : EdgesOk lin guess edges.x dim m (b.indices.dims.filter (·.1 ≠ dim))) (hu : b.coord.unit = edges.unit) :
    ∃ r, histogramBinned lin guess b masks edges = .ok r ∧ r.dims = b.indices.dims.filter (·.1 ≠ dim) ++ [(dim, m)] ∧ r.unit = b.unit ∧
      ∀ c, InDims r.dims c → r.elem c = weightWhere (InBin (row edges.x dim (m + 1) c) (c dim).toNat) (eventsAt b masks dim c) := by
  have hfi : Dim.invalid ∉ labels (b.indices.dims.filter (·.1 ≠ dim)) := fun hc => hb.indices.valid (labels_mono (fun p hp => List.mem_of_mem_filter hp) _ hc)
  obtain ⟨e, e1, e2, e3, e4, e5⟩ := C62_as_contiguous edges.x he.wf (he.notInvalid hfi) dim (m + 1) he.along
  obtain ⟨ix, i1, i2, i3, i4⟩ := hideMasked_ok hb.indices hm dim
  have hN : 0 ≤ N := hb.data.1.1.2 (b.dim, N) (by rw [hb.data.2]; simp)
  have hb' : BinnedOk { b with indices := ix } N := ⟨i3, fun c hc => by
    simp only
    rw [i4 c]
    split
    · exact ⟨le_refl _, le_refl _, hN⟩
    · exact hb.inside c (i2 ▸ hc), hb.valid, hb.data, hb.coord, hb.masks, hb.data_adjacent, hb.coord_adjacent⟩
  have hef : ∀ c, InDims (e.view.dims.filter (·.1 ≠ dim)) c → InDims (edges.x.view.dims.filter (·.1 ≠ dim)) c := fun c hc => inDims_perm (e4.filter _) hc
  have hrow : ∀ c, InDims (e.view.dims.filter (·.1 ≠ dim)) c → row e dim (m + 1) c = row edges.x dim (m + 1) c := fun c hc => he.same e4 e5 (hef c hc)
  obtain ⟨r, r1, r2, r3, r4⟩ := buckets_ok (lin := lin) (guess := guess) (edges := { edges with x := e }) (m := m) (dim := dim) hb' (contiguous_inner he.wf (he.notInvalid hfi) he.along he.inner e1) e2 (e4.mem_iff.2 he.along) e3 he.nonneg he.valid
    (fun p hp hne => by simp only [i2]; exact he.others p (e4.mem_iff.1 hp) hne)
    (fun c hc => by simp only; rw [hrow c hc]; exact he.sorted c (hef c hc))
    (fun c hc => by simp only; rw [hrow c hc]; exact he.lin (hef c hc)) hu
  simp only [i2] at r2
  refine ⟨r, ?_, r2, r3, fun c hc => ?_⟩
  · simp only [histogramBinned, he.inner, e1, i1, r1, bind, Except.bind]
  · have hc' : InDims (b.indices.dims.filter (·.1 ≠ dim)) c := fun d k hk => hc d k (by rw [r2, List.mem_append]; exact .inl hk)
    have hpe : InDims (edges.x.view.dims.filter (·.1 ≠ dim)) c := by
      intro d k hk
      simp only [List.mem_filter, decide_eq_true_eq] at hk
      exact hc' d k (he.others _ hk.1 hk.2)
    rw [r4 c hc, he.same e4 e5 hpe]
    congr 1
    have hin : ∀ c, eventsIn { b with indices := ix } c = if maskedAlong masks dim c then [] else eventsIn b c := by
      intro c
      simp only [eventsIn, i4 c]
      split
      · simp [intRange]
      · rfl
    simp only [eventsAt, i2, hin]
    split
    · congr 1
    · rename_i e he'
      have : maskedAlong masks dim c = false := by
        rw [maskedAlong, List.any_eq_false]
        intro p hp
        have hn : dim ∉ labels p.2.arr.dims := fun hd => by
          obtain ⟨k, hk⟩ := at?_ok_of_mem_labels (labels_mono (hm p hp).2.2 _ hd)
          rw [hk] at he'
          cases he'
        simp [contains_false.2 hn]
      rw [if_neg (by simp [this])]

/-! ### Bin-edge coords -/

private def haNo : List Int → Bool := fun _ => false
private def haGuess : List Int → Int → Int := fun _ _ => 0
private def haVar {β : Type} (d : Dim) (vals : List β) (x : β) : Var β := ⟨⟨[(d, (vals.length : Int))], [1], 0, false⟩, fun a => vals.getD a.toNat x⟩

/-- A coord with edges for a dim with another name is not recognized as such: there is one event more than weights, which are then read beyond their end. For a coord with the name of the dim this is an error. The
coord has values 0, 1, 2, the data two elements; there is one bin from 0 to 5. -/
theorem C85_edges_out_of_bounds :
    (histogramArray haNo haGuess (haVar 4 [(10 : Int), 20] 0) 1 [] ⟨haVar 4 [some 0, some 1, some 2] none, 2⟩ ⟨haVar 5 [0, 5] 0, 2⟩).map (fun _ => ()) = .error .ub ∧
    (histogramArray haNo haGuess (haVar 5 [(10 : Int), 20] 0) 1 [] ⟨haVar 5 [some 0, some 1, some 2] none, 2⟩ ⟨haVar 5 [0, 5] 0, 2⟩).map (fun _ => ()) = .error .binEdge := by
  decide +kernel

/-! ### Examples -/

/-- Two rows of three elements, in transposed memory order. -/
private def haData : Var Int := ⟨⟨[(4, 2), (5, 3)], [1, 2], 0, false⟩, fun a => a + 1⟩
private def haCoord : Coord (Option Int) := ⟨haVar 5 [some 3, some 0, some 1] none, 2⟩
private def haEdges : Coord Int := ⟨haVar 6 [0, 2, 5] 0, 2⟩
private def haMask : MaskVar := { arr := ⟨[(5, 3), (4, 2)], fun c => decide (c 4 = 1 ∧ c 5 = 2)⟩ }

private theorem haVar_wf {β : Type} (d : Dim) (vals : List β) (x : β) : (haVar d vals x).view.WF := by
  simp [View.WF, Sizes.WF, labels, haVar]

private theorem haEdges_ok (dims : Dims) : EdgesOk haNo haGuess haEdges.x 6 2 dims where
  wf := haVar_wf _ _ _
  inner := rfl
  valid := by decide
  along := by simp [haEdges, haVar]
  nonneg := by decide
  others := by simp [haEdges, haVar]
  sorted := fun c _ => by
    have : row haEdges.x 6 (2 + 1) c = [0, 2, 5] := by simp [row, haEdges, haVar, Var.elem, View.addr, addrAux, upd, List.range_succ]
    rw [this]
    unfold Ascending
    decide
  guess := fun c _ h => by simp [haNo] at h

private theorem haMask_ok : MasksOk [(7, haMask)] haData.view.dims := by
  intro p hp
  simp only [List.mem_singleton] at hp
  subst hp
  refine ⟨⟨by simp [haMask, Sizes.WF, labels], by simp [haMask, labels, Dim.invalid], fun c c' h => ?_⟩, ⟨rfl, rfl⟩, fun q hq => ?_⟩
  · simp [haMask, labels] at h ⊢
    rw [h.1, h.2]
  · simp [haMask] at hq
    rcases hq with rfl | rfl <;> simp [haData]

example := C85_dense_partial haNo haGuess haData 1 [(7, haMask)] haCoord haEdges 6 5 3 2
  ⟨by simp [haData, View.WF, Sizes.WF, labels], by simp [haData, labels, Dim.invalid], by simp [haData], haVar_wf _ _ _, by simp [haCoord, haVar], by simp [haCoord, haVar, haData], .inl rfl,
    by simp [haData, labels]⟩ haMask_ok (haEdges_ok _) rfl

/-- The elements with coordinates 0 and 1 are in the first bin, that with 3 in the second. The last element of the second row is masked. -/
example : (histogramArray haNo haGuess haData 1 [(7, haMask)] haCoord haEdges).map (fun r => (r.dims, [(0, 0), (0, 1), (1, 0), (1, 1)].map fun (p : Int × Int) =>
    r.elem fun d => if d = 4 then p.1 else p.2)) = .ok ([(4, 2), (6, 2)], [3 + 5, 1, 4, 2]) := by decide +kernel

/-- Six events in three bins along dim 6, the second of which is masked. The last event is masked. -/
private def haBinned : Binned Int Int :=
  ⟨⟨[(6, 3)], fun c => if c 6 = 0 then (0, 2) else if c 6 = 1 then (2, 4) else (4, 6)⟩, 8, haVar 8 [1, 2, 4, 8, 16, 32] 0,
    [(3, { arr := ⟨[(8, 6)], fun c => decide (c 8 = 5)⟩ })], ⟨haVar 8 [some 0, some 3, some 1, some 1, some 1, some 4] none, 2⟩, 1⟩
private def haBinMask : MaskVar := { arr := ⟨[(6, 3)], fun c => decide (c 6 = 1)⟩ }

example := C85_binned haNo haGuess haBinned 6
  ⟨⟨by simp [haBinned, Sizes.WF, labels], by simp [haBinned, labels, Dim.invalid], fun c c' h => by simp [haBinned, labels] at h ⊢; rw [h]⟩,
    fun c _ => by simp only [haBinned]; split <;> (try split) <;> decide, by decide, ⟨haVar_wf _ _ _, rfl⟩, ⟨haVar_wf _ _ _, rfl⟩, by
      intro p hp
      simp only [haBinned, List.mem_singleton] at hp
      subst hp
      refine ⟨⟨by simp [Sizes.WF, labels], by simp [labels, Dim.invalid], fun c c' h => ?_⟩, ⟨rfl, rfl⟩, fun q hq => hq⟩
      simp [labels] at h ⊢
      rw [h], fun i => by simp [haBinned, haVar, View.addr, addrAux], fun i => by simp [haBinned, haVar, View.addr, addrAux]⟩
  [(7, haBinMask)] (by
    intro p hp
    simp only [List.mem_singleton] at hp
    subst hp
    refine ⟨⟨by simp [haBinMask, Sizes.WF, labels], by simp [haBinMask, labels, Dim.invalid], fun c c' h => ?_⟩, ⟨rfl, rfl⟩, fun q hq => hq⟩
    simp [haBinMask, labels] at h ⊢
    rw [h]) haEdges 6 2 (haEdges_ok _) rfl

example : (histogramBinned haNo haGuess haBinned [(7, haBinMask)] haEdges).map (fun r => (r.dims, [0, 1].map fun (k : Int) => r.elem fun _ => k)) = .ok ([(6, 2)], [1 + 16, 2]) := by decide +kernel

end Scipp.Props
