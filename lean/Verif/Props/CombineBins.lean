import Verif.Lemmas.CombineBins3
import Mathlib.Data.List.Perm.Subperm

/-!
# C109: combining bins

`bins.concat` joins the bins along some dims; `group` and `bin` by a coordinate of the bins join those with equal labels or labels in the same
interval. No event is lost, duplicated, or put into the wrong bin, the events are in the order of the input bins, and bins that are masked are left
out.
-/

namespace Scipp.Props
open Scipp Scipp.CombineBins

/-- `bins.concat`: every resulting bin has the events of the input bins with the same position in the other dims, one after the other, without
those that are masked. It fails exactly if one of the dims does not exist. -/
theorem C109_concat {E : Type} (b : Binned E) (masks : List Mask) (erase : List Dim) (hv : Valid b) (hnd : erase.Nodup)
    (hloc : ∀ m ∈ masks, m.Local) (hsub : ∀ m ∈ masks, ∀ e ∈ m.dims, e ∈ b.shape.map (·.1)) :
    (concatBins b masks erase = .error .dimension ↔ ¬ ∀ d ∈ erase, d ∈ b.shape.map (·.1)) ∧
    ((∀ d ∈ erase, d ∈ b.shape.map (·.1)) → ∃ p, concatBins b masks erase = .ok p ∧ p.shape = kept b erase ∧
      p.ranges.length = (positions (kept b erase)).length ∧
      ∀ (k : Nat) (u : Pos), (positions (kept b erase))[k]? = some u →
        p.content k = gather b masks erase (fun _ => True) ((positions (erased b erase)).map (fun v => join erase u v))) := by
  have hlabels : (hideMasked b (irreducibleMask (b.shape.map (·.1)) masks erase)).shape.map (·.1) = b.shape.map (·.1) := by
    unfold hideMasked
    split
    · rfl
    · split
      · rw [List.map_map]
        refine List.map_congr_left (fun p _ => ?_)
        simp only [Function.comp]
        split_ifs with h
        · exact h.symm
        · rfl
      · rfl
  have hcond : (erase.all (fun d => ((hideMasked b (irreducibleMask (b.shape.map (·.1)) masks erase)).shape.map (·.1)).contains d)) = true ↔
      ∀ d ∈ erase, d ∈ b.shape.map (·.1) := by
    rw [hlabels, List.all_eq_true]
    simp only [List.contains_iff_mem]
  refine ⟨?_, fun hall => ?_⟩
  · rw [← hcond]
    unfold concatBins concatVar
    split_ifs with h
    · exact Iff.intro (fun h' => by cases h') (fun h' => absurd h h')
    · exact ⟨fun _ => h, fun _ => rfl⟩
  · have hok : ∃ p, concatBins b masks erase = .ok p := by
      unfold concatBins concatVar
      rw [if_pos (hcond.2 hall)]
      exact ⟨_, rfl⟩
    obtain ⟨p, hp⟩ := hok
    obtain ⟨h1, h2, h3⟩ := concatVar_content (valid_hideMasked hv _) hp
    refine ⟨p, hp, ?_⟩
    cases hm : irreducibleMask (b.shape.map (·.1)) masks erase with
    | none =>
      rw [hm] at h1 h2 h3
      refine ⟨h1, h2, fun k u hu => ?_⟩
      rw [h3 k u hu, gather, List.flatMap_map]
      congr 1
      funext v
      rw [if_pos ⟨not_hidden_of_none hm _, trivial⟩]
      rfl
    | some m =>
      rw [hm, kept_hide hm hloc hsub] at h1 h2 h3
      refine ⟨h1, h2, fun k u hu => ?_⟩
      have hg : gather b masks erase (fun _ => True) ((positions (erased b erase)).map (fun v => join erase u v)) =
          (positions (erased b erase)).flatMap (fun v => if m.masked (join erase u v) then [] else b.content (join erase u v)) := by
        rw [gather, List.flatMap_map]
        congr 1
        funext v
        by_cases h : m.masked (join erase u v) = true
        · rw [if_pos h, if_neg (fun h' => h'.1 ((masked_iff hm _).1 h))]
        · rw [if_neg h, if_pos ⟨fun h' => h ((masked_iff hm _).2 h'), trivial⟩]
      rw [h3 k u hu, hg]
      by_cases hd : ∃ d, m.dims = [d]
      · obtain ⟨d, hd⟩ := hd
        exact hide_single hm hd hloc hsub hnd u
      · have hd' : ∀ d, m.dims ≠ [d] := fun d h => hd ⟨d, h⟩
        have hs : erased (hideMasked b (some m)) erase = erased b erase := by rw [hide_other hd']; rfl
        rw [hs]
        congr 1
        funext v
        exact content_hide_other hd' _

/-- `group` or `bin` by a coordinate of the bins: the bin of a group has the events of the input bins with a label of this group, one after the
other, without those that are masked. Missing: masks for one dim, see `C109_group_fails` and `C109_wrong_one_masked`. -/
theorem C109_group_partial {E Label : Type} (b : Binned E) (masks : List Mask) (label : Pos → Label) (key : Label → Option Nat) (new : Dim)
    (ngroup : Nat) (erase : List Dim) (hv : Valid b)
    (hmask : ∀ m, irreducibleMask (b.shape.map (·.1)) masks erase = some m → m.dims.length ≠ 1) :
    ∃ p, combineBins b masks label key new ngroup erase = .ok p ∧ p.shape = kept b erase ++ [(new, ngroup)] ∧
      ∀ (k : Nat) (u : Pos), (positions (kept b erase))[k]? = some u → ∀ g < ngroup,
        p.content (k * ngroup + g) = gather b masks erase (fun c => key (label c) = some g)
          ((positions (erasedInOrder b erase)).map (fun v => join ((erasedInOrder b erase).map (·.1)) u v)) := by
  cases hm : irreducibleMask (b.shape.map (·.1)) masks erase with
  | none =>
    refine ⟨combineVar b label key new ngroup erase, by simp [combineBins, hm, removedBy, checkCoord, hideMasked], rfl, ?_⟩
    intro k u hu g hg
    rw [combineVar_content hv label key new ngroup erase k u hu g hg, gather, List.flatMap_map]
    congr 1
    funext v
    by_cases h : key (label (join ((erasedInOrder b erase).map (·.1)) u v)) = some g
    · rw [if_pos h, if_pos ⟨not_hidden_of_none hm _, h⟩]
    · rw [if_neg h, if_neg (fun h' => h h'.2)]
  | some m =>
    have hd' : ∀ d, m.dims ≠ [d] := fun d h => hmask m hm (by rw [h]; rfl)
    have hrem : removedBy b (some m) = 0 := by
      unfold removedBy
      dsimp only
      split
      · rename_i d h; exact absurd h (hd' d)
      · rfl
    have hk : kept (hideMasked b (some m)) erase = kept b erase := by rw [hide_other hd']; rfl
    have he : erasedInOrder (hideMasked b (some m)) erase = erasedInOrder b erase := by rw [hide_other hd']; rfl
    refine ⟨combineVar (hideMasked b (some m)) label key new ngroup erase, by simp [combineBins, hm, hrem, checkCoord], ?_, ?_⟩
    · show kept (hideMasked b (some m)) erase ++ _ = _
      rw [hk]
    intro k u hu g hg
    rw [combineVar_content (valid_hideMasked hv _) label key new ngroup erase k u (by rw [hk]; exact hu) g hg, gather, List.flatMap_map, he]
    congr 1
    funext v
    rw [content_hide_other hd']
    by_cases h : key (label (join ((erasedInOrder b erase).map (·.1)) u v)) = some g
    · rw [if_pos h]
      by_cases h2 : m.masked (join ((erasedInOrder b erase).map (·.1)) u v) = true
      · rw [if_pos h2, if_neg (fun h' => h'.1 ((masked_iff hm _).1 h2))]
      · rw [if_neg h2, if_pos ⟨fun h' => h2 ((masked_iff hm _).2 h'), h⟩]
    · rw [if_neg h, if_neg (fun h' => h h'.2)]

/-- `group` or `bin` by a coordinate of the bins fails if there is a mask for one dim with two or more masked bins. -/
theorem C109_group_fails {E Label : Type} (b : Binned E) (masks : List Mask) (label : Pos → Label) (key : Label → Option Nat) (new : Dim)
    (ngroup : Nat) (erase : List Dim) (m : Mask) (d : Dim) (hm : irreducibleMask (b.shape.map (·.1)) masks erase = some m) (hd : m.dims = [d])
    (i j : Nat) (hij : i < j) (hj : j < sizeOf b.shape d) (hi : m.masked (fun e => if e = d then i else 0) = true)
    (hj' : m.masked (fun e => if e = d then j else 0) = true) : combineBins b masks label key new ngroup erase = .error .dimension := by
  have hlen : (selected m d (sizeOf b.shape d)).length + 2 ≤ sizeOf b.shape d := by
    unfold selected
    generalize sizeOf b.shape d = n at hj
    set f : Nat → Bool := fun i => !m.masked (fun e => if e = d then i else 0) with hf
    have hsub : ((List.range n).filter f).length + ((List.range n).filter (fun i => !f i)).length = n := by
      have := List.length_eq_length_filter_add (l := List.range n) f
      simpa using this.symm
    have htwo : 2 ≤ ((List.range n).filter (fun i => !f i)).length := by
      have hs : [i, j].Subperm ((List.range n).filter (fun i => !f i)) := by
        refine List.Nodup.subperm (by simp; omega) ?_
        intro x hx
        simp only [List.mem_cons, List.not_mem_nil, or_false] at hx
        rw [List.mem_filter]
        rcases hx with rfl | rfl
        · exact ⟨List.mem_range.2 (by omega), by simp [hf, hi]⟩
        · exact ⟨List.mem_range.2 hj, by simp [hf, hj']⟩
      simpa using hs.length_le
    omega
  have hr : ∀ r, 2 ≤ r → checkCoord b.shape.length r = .error .dimension := by
    intro r hr
    simp only [checkCoord]
    rw [if_neg (by omega), if_neg (by omega)]
  simp only [combineBins, hm]
  rw [hr]
  simp only [removedBy, hd]
  omega

/-- Three bins with one event each and the labels 1, 2, 3, of which the first is masked. -/
private def threeBins : Binned Nat := ⟨[(1, 3)], fun c => if c 1 < 3 then (c 1, c 1 + 1) else (0, 0), [10, 20, 30]⟩

/-- The mask of the first bin. -/
private def firstMasked : Mask := ⟨[1], fun c => c 1 = 0⟩

/-- With exactly one bin masked by a mask for one dim, the coordinate of the remaining bins is taken for bin edges, and events are put into wrong
groups without an error: here the event of the bin with label 2 is put into the group of label 1, and that of label 3 into the group of label 2. -/
theorem C109_wrong_one_masked :
    (combineBins threeBins [firstMasked] (fun c => c 1 + 1) (fun l => if 1 ≤ l ∧ l ≤ 3 then some (l - 1) else none) 2 3 [1]).toOption.map
        (fun p => [p.content 0, p.content 1, p.content 2]) = some [[20], [30], []] ∧
      gather threeBins [firstMasked] [1] (fun c => (fun l => if 1 ≤ l ∧ l ≤ 3 then some (l - 1) else none) (c 1 + 1) = some 0)
        ((positions [(1, 3)]).map (fun v => join [1] (fun _ => 0) v)) = [] := by
  refine ⟨by decide, ?_⟩
  rw [gather, List.flatMap_eq_nil_iff]
  intro c _
  rw [if_neg]
  rintro ⟨h1, h2⟩
  apply h1
  refine ⟨firstMasked, by simp, ⟨1, by simp [firstMasked], by simp⟩, ?_⟩
  simp only at h2
  split_ifs at h2 with h
  simp only [Option.some.injEq] at h2
  simp only [firstMasked, decide_eq_true_eq]
  omega

/-! ## Examples -/

/-- Two times three bins with gaps and an empty bin in the buffer. -/
private def sixBins : Binned Nat :=
  ⟨[(1, 2), (2, 3)], fun c => [(0, 2), (2, 3), (3, 3), (5, 6), (6, 8), (8, 9)].getD (c 1 * 3 + c 2) (0, 0), [0, 1, 2, 3, 4, 5, 6, 7, 8]⟩

private theorem sixBins_valid : Valid sixBins := by
  intro c
  have : ∀ k, (([(0, 2), (2, 3), (3, 3), (5, 6), (6, 8), (8, 9)] : List (Nat × Nat)).getD k (0, 0)).1 ≤
      (([(0, 2), (2, 3), (3, 3), (5, 6), (6, 8), (8, 9)] : List (Nat × Nat)).getD k (0, 0)).2 ∧
      (([(0, 2), (2, 3), (3, 3), (5, 6), (6, 8), (8, 9)] : List (Nat × Nat)).getD k (0, 0)).2 ≤ 9 := by
    intro k
    by_cases hk : k < 6
    · have : ∀ k < 6, (([(0, 2), (2, 3), (3, 3), (5, 6), (6, 8), (8, 9)] : List (Nat × Nat)).getD k (0, 0)).1 ≤
        (([(0, 2), (2, 3), (3, 3), (5, 6), (6, 8), (8, 9)] : List (Nat × Nat)).getD k (0, 0)).2 ∧
        (([(0, 2), (2, 3), (3, 3), (5, 6), (6, 8), (8, 9)] : List (Nat × Nat)).getD k (0, 0)).2 ≤ 9 := by decide
      exact this k hk
    · rw [List.getD_eq_getElem?_getD, List.getElem?_eq_none (by simp; omega)]
      simp
  exact this _

/-- A mask of the middle bins of the second dim and one of a single bin. -/
private def masks1 : List Mask := [⟨[2], fun c => c 2 = 1⟩]
private def masks2 : List Mask := [⟨[2, 1], fun c => c 2 = 1 ∧ c 1 = 1⟩]

private theorem local1 : ∀ m ∈ masks1, m.Local := by
  intro m hm c c' h
  simp only [masks1, List.mem_singleton] at hm
  subst hm
  have := h 2 (by simp)
  simp [this]

private theorem local2 : ∀ m ∈ masks2, m.Local := by
  intro m hm c c' h
  simp only [masks2, List.mem_singleton] at hm
  subst hm
  have h1 := h 2 (by simp)
  have h2 := h 1 (by simp)
  simp [h1, h2]

example := C109_concat sixBins masks1 [2] sixBins_valid (by decide) local1 (by decide)

example := C109_concat sixBins masks2 [2, 1] sixBins_valid (by decide) local2 (by decide)

example : ((concatBins sixBins masks1 [2]).toOption.map (fun p => [p.content 0, p.content 1])) = some [[0, 1], [5, 8]] := by decide

example : ((concatBins sixBins masks2 [2, 1]).toOption.map (fun p => [p.content 0])) = some [[0, 1, 5, 2, 8]] := by decide

example : ((concatBins sixBins masks2 [1]).toOption.map (fun p => [p.content 0, p.content 1, p.content 2])) = some [[0, 1, 5], [2], [8]] := by decide

example := C109_group_partial sixBins masks2 (fun c => c 2 % 2) (fun l => if l < 2 then some l else none) 3 2 [2] sixBins_valid
  (by intro m hm; simp only [irreducibleMask, masks2, sixBins] at hm; cases hm; decide)

example : ((combineBins sixBins masks2 (fun c => c 2 % 2) (fun l => if l < 2 then some l else none) 3 2 [2]).toOption.map
    (fun p => [p.content 0, p.content 1, p.content 2, p.content 3])) = some [[0, 1], [2], [5, 8], []] := by decide

example : combineBins sixBins [⟨[2], fun c => c 2 < 2⟩] (fun c => c 2 % 2) (fun l => if l < 2 then some l else none) 3 2 [2] = .error .dimension :=
  C109_group_fails _ _ _ _ _ _ _ ⟨[2], fun c => [Mask.mk [2] (fun c => c 2 < 2)].any (fun m => m.masked c)⟩ 2 rfl rfl 0 1 (by decide) (by decide)
    (by decide) (by decide)

end Scipp.Props
