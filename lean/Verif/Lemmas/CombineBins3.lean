import Verif.Lemmas.CombineBins2

namespace Scipp.CombineBins

variable {E Label : Type}

/-- The bins which are left after hiding masked ones, for a 1-D mask, in the order in which they are visited. -/
theorem hide_single {b : Binned E} {masks : List Mask} {erase : List Dim} {m : Mask} {d : Dim}
    (hm : irreducibleMask (b.shape.map (·.1)) masks erase = some m) (hd : m.dims = [d]) (hloc : ∀ m ∈ masks, m.Local)
    (hsub : ∀ m ∈ masks, ∀ e ∈ m.dims, e ∈ b.shape.map (·.1)) (hnd : erase.Nodup) (u : Pos) :
    (positions (erased (hideMasked b (some m)) erase)).flatMap (fun v => (hideMasked b (some m)).content (join erase u v)) =
      (positions (erased b erase)).flatMap (fun v => if m.masked (join erase u v) then [] else b.content (join erase u v)) := by
  obtain ⟨hde, hdo, hdep⟩ := irreducible_single hm hd hloc hsub
  set n := sizeOf b.shape d with hn
  set g : Nat → Bool := fun i => !m.masked (fun e => if e = d then i else 0) with hg
  have hhide : hideMasked b (some m) = ⟨b.shape.map (fun p => if p.1 = d then (d, ((List.range n).filter g).length) else p),
      fun c => b.range (c.set d (((List.range n).filter g).getD (c d) 0)), b.buffer⟩ := by
    simp only [hideMasked, hd]; rfl
  have hshape : erased (hideMasked b (some m)) erase =
      (erased b erase).map (fun p => if p.1 = d then (d, ((List.range n).filter g).length) else p) := by
    rw [hhide, erased, erased, List.map_map]
    refine List.map_congr_left (fun e _ => ?_)
    simp only [Function.comp]
    rw [sizeOf_resize hdo]
    by_cases he : e = d
    · subst he; simp
    · simp [he]
  have hlab : (erased b erase).map (·.1) = erase := by simp [erased, List.map_map, Function.comp_def]
  have hmem : (d, n) ∈ erased b erase := List.mem_map.2 ⟨d, hde, rfl⟩
  have key := positions_select g d n (erased b erase) (by rw [hlab]; exact hnd) hmem (fun v => b.content (join erase u v))
  rw [hshape]
  have hc : ∀ v : Pos, (hideMasked b (some m)).content (join erase u v) =
      b.content (join erase u (v.set d (((List.range n).filter g).getD (v d) 0))) := by
    intro v
    rw [hhide]
    simp only [Binned.content]
    congr 2
    funext e
    simp only [Pos.set, join]
    by_cases he : e = d
    · subst he; rw [if_pos rfl, if_pos hde, if_pos hde, if_pos rfl]
    · rw [if_neg he, if_neg he]
  simp only [hc]
  rw [key]
  congr 1
  funext v
  have : m.masked (join erase u v) = m.masked (fun e => if e = d then v d else 0) := by
    refine hdep _ _ ?_
    simp [join, hde]
  rw [this]
  simp only [hg]
  cases m.masked (fun e => if e = d then v d else 0) <;> rfl

theorem hide_other {b : Binned E} {m : Mask} (hd : ∀ d, m.dims ≠ [d]) :
    hideMasked b (some m) = ⟨b.shape, fun c => if m.masked c then ((b.range c).1, (b.range c).1) else b.range c, b.buffer⟩ := by
  unfold hideMasked
  dsimp only
  split
  · rename_i d h; exact absurd h (hd d)
  · rfl

theorem content_hide_other {b : Binned E} {m : Mask} (hd : ∀ d, m.dims ≠ [d]) (c : Pos) :
    (hideMasked b (some m)).content c = if m.masked c then [] else b.content c := by
  rw [hide_other hd]
  simp only [Binned.content]
  split_ifs <;> simp [slice]

theorem kept_hide {b : Binned E} {masks : List Mask} {erase : List Dim} {m : Mask} (hm : irreducibleMask (b.shape.map (·.1)) masks erase = some m)
    (hloc : ∀ m ∈ masks, m.Local) (hsub : ∀ m ∈ masks, ∀ e ∈ m.dims, e ∈ b.shape.map (·.1)) :
    kept (hideMasked b (some m)) erase = kept b erase := by
  by_cases hd : ∃ d, m.dims = [d]
  · obtain ⟨d, hd⟩ := hd
    obtain ⟨hde, _, _⟩ := irreducible_single hm hd hloc hsub
    simp only [kept, hideMasked, hd]
    generalize (selected m d (sizeOf b.shape d)).length = k
    induction b.shape with
    | nil => rfl
    | cons p ps ih =>
      by_cases hp : p.1 = d
      · have h1 : erase.contains p.1 = true := by rw [hp]; simpa using hde
        have h2 : erase.contains d = true := by simpa using hde
        simp only [List.map_cons, if_pos hp]
        rw [List.filter_cons_of_neg (by simpa using h2), List.filter_cons_of_neg (by simpa using h1)]
        exact ih
      · simp only [List.map_cons, if_neg hp]
        simp only [List.filter_cons]
        rw [ih]
  · rw [hide_other (fun d h => hd ⟨d, h⟩)]
    rfl

/-- The events in the bins of `_combine_bins`. -/
theorem combineVar_content {b : Binned E} (hv : Valid b) (label : Pos → Label) (key : Label → Option Nat) (new : Dim) (ngroup : Nat)
    (erase : List Dim) (k : Nat) (u : Pos) (hu : (positions (kept b erase))[k]? = some u) (g : Nat) (hg : g < ngroup) :
    (combineVar b label key new ngroup erase).content (k * ngroup + g) =
      (positions (erasedInOrder b erase)).flatMap (fun v =>
        if key (label (join ((erasedInOrder b erase).map (·.1)) u v)) = some g then b.content (join ((erasedInOrder b erase).map (·.1)) u v) else []) := by
  set C := erasedInOrder b erase with hC
  set U := kept b erase with hU
  have hdisj : ∀ e ∈ U.map (·.1), e ∉ C.map (·.1) := by
    intro e he hc
    simp only [hU, kept, List.mem_map, List.mem_filter] at he
    obtain ⟨q, ⟨_, hq⟩, rfl⟩ := he
    simp only [hC, erasedInOrder, List.mem_map, List.mem_filter] at hc
    obtain ⟨q', ⟨_, hq'⟩, hqq⟩ := hc
    rw [hqq] at hq'
    rw [hq'] at hq
    simp at hq
  set F : Pos → Label × (Nat × Nat) := fun c => (label c, b.range c) with hF
  set J := fun u v => join (C.map (·.1)) u v with hJ
  set L := (positions U).map (fun u => (positions C).map (fun v => F (J u v))) with hL
  have hparams : (positions (U ++ C)).map F = L.flatten := by
    rw [positions_append _ _ hdisj, List.map_flatMap, hL, ← List.flatMap_def]
    congr 1
    funext u
    rw [List.map_map]
    rfl
  have hsz : (positions U).map (fun _ => (C.map (·.2)).prod) = L.map List.length := by
    rw [hL, List.map_map]
    refine List.map_congr_left (fun u _ => ?_)
    simp [Function.comp, length_positions]
  have hpseudo : (withSizes (L.map List.length)).map (fun r => slice L.flatten r) = L := by
    apply List.ext_getElem?
    intro i
    by_cases hi : i < L.length
    · have h1 := withSizes_content (L := L) (k := i) (x := L[i]) (List.getElem?_eq_getElem hi)
      have hi' : i < (withSizes (L.map List.length)).length := by rw [length_withSizes]; simpa using hi
      rw [List.getElem?_map, List.getElem?_eq_getElem hi', List.getElem?_eq_getElem hi]
      rw [List.getD_eq_getElem?_getD, List.getElem?_eq_getElem hi'] at h1
      simpa using h1
    · have hi' : ¬ i < (withSizes (L.map List.length)).length := by rw [length_withSizes]; simpa using hi
      rw [List.getElem?_map, List.getElem?_eq_none (by omega), List.getElem?_eq_none (by omega)]
      rfl
  set cell := fun (x : List (Label × (Nat × Nat))) (g : Nat) => x.filter (fun p => decide (key p.1 = some g)) with hcell
  set cells := L.flatMap (fun x => (List.range ngroup).map (cell x)) with hcells
  have hcells' : (withSizes (L.map List.length)).flatMap (fun r => (List.range ngroup).map (cell (slice L.flatten r))) = cells := by
    rw [hcells]
    conv_rhs => rw [← hpseudo]
    rw [List.flatMap_map]
  set s := fun (p : Label × (Nat × Nat)) => slice b.buffer p.2 with hs
  have hvalid : ∀ x ∈ cells, ∀ p ∈ x, (s p).length = p.2.2 - p.2.1 := by
    intro x hx p hp
    rw [hcells, List.mem_flatMap] at hx
    obtain ⟨y, hy, hx⟩ := hx
    obtain ⟨g', _, rfl⟩ := List.mem_map.1 hx
    have hp' := (List.mem_filter.1 hp).1
    rw [hL] at hy
    obtain ⟨u', _, rfl⟩ := List.mem_map.1 hy
    obtain ⟨v', _, rfl⟩ := List.mem_map.1 hp'
    exact length_slice (hv _).1 (hv _).2
  set M := cells.map (fun x => x.flatMap s) with hM
  have hbuf : cells.flatten.flatMap s = M.flatten := by
    rw [hM, ← List.flatMap_def]
    clear_value cells
    clear hcells' hvalid hM hcells
    induction cells with
    | nil => rfl
    | cons x xs ih => simp [List.flatMap_append, ih]
  have hsizes : cells.map (fun x => (x.map (fun p => p.2.2 - p.2.1)).sum) = M.map List.length := by
    rw [hM, List.map_map]
    refine List.map_congr_left (fun x hx => ?_)
    simp only [Function.comp, List.length_flatMap]
    congr 1
    refine List.map_congr_left (fun p hp => ?_)
    exact (hvalid x hx p hp).symm
  have hLk : L[k]? = some ((positions C).map (fun v => F (J u v))) := by rw [hL, List.getElem?_map, hu]; rfl
  have hget : ∀ (L : List (List (Label × (Nat × Nat)))) (k : Nat) (x), L[k]? = some x →
      (L.flatMap (fun x => (List.range ngroup).map (cell x)))[k * ngroup + g]? = some (cell x g) := by
    intro L
    induction L with
    | nil => intro k x h; simp at h
    | cons y ys ih =>
      intro k x h
      rw [List.flatMap_cons]
      cases k with
      | zero =>
        simp only [List.getElem?_cons_zero, Option.some.injEq] at h
        subst h
        rw [List.getElem?_append_left (by simpa using hg)]
        simp [hg]
      | succ k =>
        rw [List.getElem?_append_right (by simp; rw [Nat.succ_mul]; omega)]
        have : (k + 1) * ngroup + g - ((List.range ngroup).map (cell y)).length = k * ngroup + g := by
          simp; rw [Nat.succ_mul]; omega
        rw [this]
        exact ih k x (by simpa using h)
  have hMk : M[k * ngroup + g]? = some ((cell ((positions C).map (fun v => F (J u v))) g).flatMap s) := by
    rw [hM, List.getElem?_map, hcells, hget L k _ hLk]; rfl
  have := withSizes_content hMk
  have hfinal : (cell ((positions C).map (fun v => F (J u v))) g).flatMap s =
      (positions C).flatMap (fun v => if key (label (J u v)) = some g then b.content (J u v) else []) := by
    clear_value C
    generalize positions C = vs
    induction vs with
    | nil => rfl
    | cons v vs ih =>
      rw [List.flatMap_cons, ← ih]
      simp only [hcell, List.map_cons]
      by_cases hk : key (label (J u v)) = some g
      · rw [List.filter_cons_of_pos (by simpa [hF] using hk), List.flatMap_cons, if_pos hk]; rfl
      · rw [List.filter_cons_of_neg (by simpa [hF] using hk), if_neg hk]; rfl
  rw [← hfinal, ← this, ← hbuf, ← hsizes, ← hcells', ← hparams, ← hsz]
  rfl

end Scipp.CombineBins
