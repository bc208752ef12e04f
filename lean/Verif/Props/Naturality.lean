import Verif.Lemmas.Naturality
/-!
C105: rearranging before or after a computation.
-/
namespace Scipp.Props
open Scipp Sizes
variable {V : Type} {N : Nat}

private theorem good_dims {o : Operand V} (h : GoodOperand o) : GoodDims o.view.dims := ⟨h.1.1, h.2⟩

private theorem sliced_good {p : Slice} {o o' : Operand V} (hg : GoodOperand o) (hp : p.Constructed) (h : o.Sliced p o') : GoodOperand o' := by
  obtain ⟨-, h⟩ := h
  split at h
  · refine ⟨View.slice_wf hg.1 hp h, ?_⟩
    obtain ⟨-, -, -, h4, h5⟩ := slice_facts hg.1 hp h
    by_cases he : p.stop = -1
    · rw [h4 he]; exact fun hi => hg.2 (List.mem_of_mem_filter hi)
    · rw [(h5 he).1]; exact hg.2
  · exact ⟨h ▸ hg.1, h ▸ hg.2⟩

private theorem sliced_addr {p : Slice} {o o' : Operand V} (hg : GoodOperand o) (hp : p.Constructed) (h : o.Sliced p o') (c : Dim → Int) :
    o'.view.addr c = o.view.addr (sliceCoords p c) := by
  obtain ⟨-, h⟩ := h
  split at h
  · exact (slice_facts hg.1 hp h).1 c
  · rename_i hn
    rw [addr_sliceCoords hn, h]

private theorem sliced_mem {p : Slice} {o o' : Operand V} (hg : GoodOperand o) (hp : p.Constructed) (h : o.Sliced p o') (d : Dim) (n : Int) (hd : d ≠ p.dim) :
    (d, n) ∈ o'.view.dims ↔ (d, n) ∈ o.view.dims := by
  obtain ⟨-, h⟩ := h
  split at h
  · exact (slice_facts hg.1 hp h).2.2.1 d n hd
  · rw [h]

private theorem extent_unique {n m : Int} {P : Int → Prop} (hn : ∀ i, 0 ≤ i → (i < n ↔ P i)) (hm : ∀ i, 0 ≤ i → (i < m ↔ P i)) (h0 : 0 ≤ n) (h1 : 0 ≤ m) : n = m := by
  rcases lt_trichotomy n m with h | h | h
  · exact absurd ((hn n h0).2 ((hm n h0).1 h)) (lt_irrefl _)
  · exact h
  · exact absurd ((hm m h1).2 ((hn m h1).1 h)) (lt_irrefl _)

/-- **C105** (slicing; the part that holds): an elementwise operation on slices gives the slice of the operation: operands without the dim are left as they
are, at least one operand has it. The dims are the same, in the same order if the slice is a range, and all elements are the same. -/
theorem C105_slice_partial (op : (Fin (N + 1) → V) → V) (ins ins' : Fin (N + 1) → Operand V) (p : Slice) (hp : p.Constructed) (dims dims' : Dims)
    (mem₁ mem₂ r r' : Int → V) (hg : ∀ i, GoodOperand (ins i)) (hb : ∀ i, (ins i).buf ≠ none) (hs : ∀ i, (ins i).Sliced p (ins' i))
    (hd : p.dim ∈ labels dims) (h : Transform op ins dims mem₁ r) (h' : Transform op ins' dims' mem₂ r') :
    ∃ out, (View.fresh dims).slice p = .ok out ∧ (∀ q, q ∈ dims' ↔ q ∈ out.dims) ∧ (p.stop ≠ -1 → dims' = out.dims) ∧
      ∀ c, InDims dims' c → r' (position dims' c) = r (out.addr c) := by
  have hg' : ∀ i, GoodOperand (ins' i) := fun i => sliced_good (hg i) hp (hs i)
  have hb' : ∀ i, (ins' i).buf ≠ none := fun i => by rw [(hs i).1]; exact hb i
  obtain ⟨k1, k2, -⟩ := C12_transform op ins dims mem₁ r hg hb h
  obtain ⟨k1', k2', -⟩ := C12_transform op ins' dims' mem₂ r' hg' hb' h'
  have hwd : Sizes.WF dims ∧ labels dims = labels dims := by
    refine ⟨?_, rfl⟩
    have := h.1
    have key : ∀ (ds : List Dims) (a m : Dims), GoodDims a → (∀ d ∈ ds, GoodDims d) → mergeAll a ds = .ok m → GoodDims m := by
      intro ds
      induction ds with
      | nil => intro a m ga _ hm; cases hm; exact ga
      | cons b ds ih =>
        intro a m ga gd hm
        simp only [mergeAll, List.foldlM_cons, bind, Except.bind] at hm
        cases h1 : Dims.merge a b with
        | error e => rw [h1] at hm; cases hm
        | ok o =>
          rw [h1] at hm
          exact ih o m (merge_pure ga (gd b List.mem_cons_self) h1).2 (fun d hd => gd d (List.mem_cons_of_mem _ hd)) hm
    exact (key _ _ _ (good_dims (hg 0)) (fun d hd => by
      obtain ⟨i, -, rfl⟩ := List.mem_map.1 hd
      exact good_dims (hg _)) this).1
  have hwf := fresh_WF hwd.1
  obtain ⟨n, hn⟩ := at?_ok_of_mem_labels hd
  have hn := at?_ok_mem hn
  obtain ⟨i0, hi0⟩ := (k1 _).1 hn
  have hsl : ∀ i m, (p.dim, m) ∈ (ins i).view.dims → (ins i).view.slice p = .ok (ins' i).view := by
    intro i m hm
    have := (hs i).2
    rwa [if_pos (mem_labels hm)] at this
  have hacc := (C04_slice_accepts_iff _ p (hg i0).1 hp).1.1 ⟨_, hsl i0 n hi0⟩
  obtain ⟨n', hn', hle⟩ := hacc
  have hnn : n' = n := by
    have h1 := at?_of_mem (hg i0).1.1.1 hn'
    have h2 := at?_of_mem (hg i0).1.1.1 hi0
    rw [h1] at h2; exact Except.ok.inj h2
  rw [hnn] at hle
  obtain ⟨out, hout⟩ := (C04_slice_accepts_iff (View.fresh dims) p hwf hp).1.2 ⟨n, hn, hle⟩
  obtain ⟨f1, f2, f3, f4, f5⟩ := slice_facts hwf hp hout
  have hmem : ∀ q, q ∈ dims' ↔ q ∈ out.dims := by
    rintro ⟨d, m⟩
    by_cases hdp : d = p.dim
    · subst hdp
      rw [k1']
      by_cases he : p.stop = -1
      · constructor
        · rintro ⟨i, hi⟩
          exfalso
          have h3 := (hs i).2
          split at h3
          · have := (slice_facts (hg i).1 hp h3).2.2.2.1 he
            have hl := mem_labels hi
            rw [this] at hl
            simpa using List.of_mem_filter hl
          · rename_i hne
            rw [h3] at hi
            exact hne (mem_labels hi)
        · intro hi
          have hl := mem_labels hi
          rw [f4 he] at hl
          simpa using List.of_mem_filter hl
      · obtain ⟨-, m', hm', hext⟩ := f5 he
        have hout0 : 0 ≤ m' := (View.slice_wf hwf hp hout).1.2 _ hm'
        constructor
        · rintro ⟨i, hi⟩
          have h3 := (hs i).2
          split at h3
          · obtain ⟨-, m2, hm2, hext2⟩ := (slice_facts (hg i).1 hp h3).2.2.2.2 he
            have e1 : m = m2 := by
              have h1 := at?_of_mem (hg' i).1.1.1 hi
              have h2 := at?_of_mem (hg' i).1.1.1 hm2
              rw [h1] at h2; exact Except.ok.inj h2
            have e2 : m2 = m' := extent_unique hext2 hext ((hg' i).1.1.2 _ hm2) hout0
            rw [e1, e2]; exact hm'
          · rename_i hne
            rw [h3] at hi
            exact absurd (mem_labels hi) hne
        · intro hi
          refine ⟨i0, ?_⟩
          obtain ⟨-, m2, hm2, hext2⟩ := (slice_facts (hg i0).1 hp (hsl i0 n hi0)).2.2.2.2 he
          have e1 : m = m' := by
            have h1 := at?_of_mem (View.slice_wf hwf hp hout).1.1 hi
            have h2 := at?_of_mem (View.slice_wf hwf hp hout).1.1 hm'
            rw [h1] at h2; exact Except.ok.inj h2
          have e2 : m2 = m' := extent_unique hext2 hext ((hg' i0).1.1.2 _ hm2) hout0
          rw [e1, ← e2]; exact hm2
    · rw [k1', f3 d m hdp]
      show _ ↔ (d, m) ∈ dims
      rw [k1]
      exact exists_congr fun i => sliced_mem (hg i) hp (hs i) d m hdp
  refine ⟨out, hout, hmem, ?_, ?_⟩
  · intro he
    have hlab : ∀ i, labels (ins' i).view.dims = labels (ins i).view.dims := by
      intro i
      have h3 := (hs i).2
      split at h3
      · exact ((slice_facts (hg i).1 hp h3).2.2.2.2 he).1
      · rw [h3]
    have hl : labels dims' = labels dims := by
      refine mergeAll_labels (good_dims (hg' 0)) (good_dims (hg 0)) ?_ ?_ (hlab 0) ?_ h'.1 h.1
      · intro d hd; obtain ⟨i, -, rfl⟩ := List.mem_map.1 hd; exact good_dims (hg' _)
      · intro d hd; obtain ⟨i, -, rfl⟩ := List.mem_map.1 hd; exact good_dims (hg _)
      · rw [List.map_map, List.map_map]
        exact List.map_congr_left fun i _ => hlab _
    apply labels_eq_iff _ _ hmem
    · rw [hl]; exact hwd.1.1
    · rw [hl]; exact (f5 he).1.symm
  · intro c hc
    have hc' : InDims out.dims c := fun d m hm => hc d m ((hmem _).2 hm)
    rw [k2' c hc, f1 c, fresh_addr, k2 _ (f2 c hc')]
    congr 1
    funext i
    have : (ins' i).read mem₂ = (ins i).read mem₁ := by
      have h1 := (hs i).1
      have h2 := hb i
      unfold Operand.read
      rw [h1]
      cases hbi : (ins i).buf with
      | none => exact absurd hbi h2
      | some f => rfl
    rw [this, sliced_addr (hg i) hp (hs i)]

private theorem same_read {o o' : Operand V} (h : o'.buf = o.buf) (hb : o.buf ≠ none) (m m' : Int → V) : o'.read m' = o.read m := by
  unfold Operand.read
  rw [h]
  cases hbi : o.buf with
  | none => exact absurd hbi hb
  | some f => rfl

private theorem merged_good {op : (Fin (N + 1) → V) → V} {ins : Fin (N + 1) → Operand V} {dims : Dims} {mem r : Int → V} (hg : ∀ i, GoodOperand (ins i))
    (h : Transform op ins dims mem r) : GoodDims dims := by
  have key : ∀ (ds : List Dims) (a m : Dims), GoodDims a → (∀ d ∈ ds, GoodDims d) → mergeAll a ds = .ok m → GoodDims m := by
    intro ds
    induction ds with
    | nil => intro a m ga _ hm; cases hm; exact ga
    | cons b ds ih =>
      intro a m ga gd hm
      simp only [mergeAll, List.foldlM_cons, bind, Except.bind] at hm
      cases h1 : Dims.merge a b with
      | error e => rw [h1] at hm; cases hm
      | ok o =>
        rw [h1] at hm
        exact ih o m (merge_pure ga (gd b List.mem_cons_self) h1).2 (fun d hd => gd d (List.mem_cons_of_mem _ hd)) hm
  exact key _ _ _ (good_dims (hg 0)) (fun d hd => by
    obtain ⟨i, -, rfl⟩ := List.mem_map.1 hd
    exact good_dims (hg _)) h.1

/-- **C105** (transposing): transposing operands, each in its own way, changes neither the dims (except their order) nor any element of the result. -/
theorem C105_transpose (op : (Fin (N + 1) → V) → V) (ins ins' : Fin (N + 1) → Operand V) (dims dims' : Dims)
    (mem₁ mem₂ r r' : Int → V) (hg : ∀ i, GoodOperand (ins i)) (hb : ∀ i, (ins i).buf ≠ none) (hs : ∀ i, (ins i).Transposed (ins' i))
    (h : Transform op ins dims mem₁ r) (h' : Transform op ins' dims' mem₂ r') :
    (∀ q, q ∈ dims' ↔ q ∈ dims) ∧ ∀ c, InDims dims c → r' (position dims' c) = r (position dims c) := by
  have hmem : ∀ i q, q ∈ (ins' i).view.dims ↔ q ∈ (ins i).view.dims := fun i q => by
    obtain ⟨o, ho⟩ := (hs i).2
    exact (C03_transpose_elements _ _ o (hg i).1 ho).2.1 q.1 q.2
  have hg' : ∀ i, GoodOperand (ins' i) := fun i => by
    obtain ⟨o, ho⟩ := (hs i).2
    refine ⟨(View.transpose_ok (hg i).1 ho).2.2.2.2.2.1, fun hi => ?_⟩
    obtain ⟨n, hn⟩ := at?_ok_of_mem_labels hi
    exact (hg i).2 (mem_labels ((hmem i _).1 (at?_ok_mem hn)))
  have hb' : ∀ i, (ins' i).buf ≠ none := fun i => by rw [(hs i).1]; exact hb i
  obtain ⟨k1, k2, -⟩ := C12_transform op ins dims mem₁ r hg hb h
  obtain ⟨k1', k2', -⟩ := C12_transform op ins' dims' mem₂ r' hg' hb' h'
  have hset : ∀ q, q ∈ dims' ↔ q ∈ dims := fun q => by
    rw [k1, k1']; exact exists_congr fun i => hmem i q
  refine ⟨hset, fun c hc => ?_⟩
  rw [k2 c hc, k2' c (fun d n hm => hc d n ((hset _).1 hm))]
  congr 1
  funext i
  obtain ⟨o, ho⟩ := (hs i).2
  rw [same_read (hs i).1 (hb i) mem₁ mem₂, (C03_transpose_elements _ _ o (hg i).1 ho).2.2.1]

/-- **C105** (broadcasting): broadcasting operands first does not change any element; the dims of the result are those of the operands after broadcasting. -/
theorem C105_broadcast (op : (Fin (N + 1) → V) → V) (ins ins' : Fin (N + 1) → Operand V) (dims dims' : Dims)
    (mem₁ mem₂ r r' : Int → V) (hg : ∀ i, GoodOperand (ins i)) (hb : ∀ i, (ins i).buf ≠ none) (hs : ∀ i, (ins i).Broadcast (ins' i))
    (h : Transform op ins dims mem₁ r) (h' : Transform op ins' dims' mem₂ r') :
    (∀ q ∈ dims, q ∈ dims') ∧ (∀ q ∈ dims', ∃ i, q ∈ (ins' i).view.dims) ∧
    ∀ c, InDims dims' c → r' (position dims' c) = r (position dims c) := by
  have hfac : ∀ i, GoodOperand (ins' i) ∧ (∀ q ∈ (ins i).view.dims, q ∈ (ins' i).view.dims) ∧ ∀ c, (ins' i).view.addr c = (ins i).view.addr c := by
    intro i
    rcases (hs i).2 with h1 | ⟨t, hw, hi, ht⟩
    · exact ⟨⟨h1 ▸ (hg i).1, h1 ▸ (hg i).2⟩, fun q hq => h1 ▸ hq, fun c => by rw [h1]⟩
    · obtain ⟨e1, e2, -⟩ := C07_broadcast_elements _ _ t (hg i).1 hw.1 ht
      obtain ⟨e3, e4⟩ := View.broadcast_ok (hg i).1 hw.1 ht
      refine ⟨⟨?_, by rw [e1]; exact hi⟩, fun q hq => by rw [e1]; exact e3 q hq, e2⟩
      rw [e4]
      refine ⟨hw, by simp, ?_⟩
      intro s hs'
      obtain ⟨d, _, rfl⟩ := List.mem_map.1 hs'
      exact strideOf_nonneg (hg i).1.2.2 d
  have hb' : ∀ i, (ins' i).buf ≠ none := fun i => by rw [(hs i).1]; exact hb i
  obtain ⟨k1, k2, -⟩ := C12_transform op ins dims mem₁ r hg hb h
  obtain ⟨k1', k2', -⟩ := C12_transform op ins' dims' mem₂ r' (fun i => (hfac i).1) hb' h'
  have hsub : ∀ q ∈ dims, q ∈ dims' := fun q hq => by
    obtain ⟨i, hi⟩ := (k1 q).1 hq
    exact (k1' q).2 ⟨i, (hfac i).2.1 q hi⟩
  refine ⟨hsub, fun q hq => (k1' q).1 hq, fun c hc => ?_⟩
  rw [k2' c hc, k2 c (fun d n hm => hc d n (hsub _ hm))]
  congr 1
  funext i
  rw [same_read (hs i).1 (hb i) mem₁ mem₂, (hfac i).2.2]

/-- Exchanging two labels. -/
private def sw (f t : Dim) (d : Dim) : Dim := if d = f then t else if d = t then f else d

private theorem sw_sw (f t d : Dim) : sw f t (sw f t d) = d := by
  unfold sw
  by_cases h1 : d = f
  · by_cases h2 : t = f <;> simp [h1, h2]
  · by_cases h2 : d = t
    · subst h2; simp [h1]
    · simp [h1, h2]

private theorem sw_inj {f t a b : Dim} (h : sw f t a = sw f t b) : a = b := by rw [← sw_sw f t a, h, sw_sw]

private def swp (f t : Dim) (p : Dim × Int) : Dim × Int := (sw f t p.1, p.2)

private theorem swp_contains (f t : Dim) (s : Dims) (d : Dim) : contains (s.map (swp f t)) (sw f t d) = contains s d := by
  rw [Bool.eq_iff_iff, contains_iff, contains_iff]
  unfold labels
  rw [List.map_map]
  constructor
  · intro h
    obtain ⟨p, hp, he⟩ := List.mem_map.1 h
    exact sw_inj he ▸ List.mem_map_of_mem hp
  · intro h
    obtain ⟨p, hp, rfl⟩ := List.mem_map.1 h
    exact List.mem_map.2 ⟨p, hp, rfl⟩

private theorem swp_mergePure (f t : Dim) (a b : Dims) : ∀ as it : Dims,
    Dims.mergePure (a.map (swp f t)) (b.map (swp f t)) (as.map (swp f t)) (it.map (swp f t)) = (Dims.mergePure a b as it).map (swp f t) := by
  have hnb : ∀ l : Dims, Dims.nb (a.map (swp f t)) (l.map (swp f t)) = (Dims.nb a l).map (swp f t) := by
    intro l
    unfold Dims.nb
    rw [List.filter_map]
    congr 1
    apply List.filter_congr
    intro p _
    simp only [Function.comp_apply, swp, swp_contains]
  have hbne : ∀ p q : Dim × Int, ((swp f t q).1 != (swp f t p).1) = (q.1 != p.1) := by
    intro p q
    rw [Bool.eq_iff_iff, bne_iff_ne, bne_iff_ne]
    exact not_congr ⟨sw_inj, fun h => congrArg (sw f t) h⟩
  intro as
  induction as with
  | nil => intro it; exact hnb it
  | cons p as ih =>
    intro it
    rw [List.map_cons]
    have hc : contains (b.map (swp f t)) (swp f t p).1 = contains b p.1 := swp_contains f t b p.1
    have htw : (it.map (swp f t)).takeWhile (fun q => q.1 != (swp f t p).1) = (it.takeWhile (fun q => q.1 != p.1)).map (swp f t) := by
      rw [List.takeWhile_map]
      congr 2
      funext q
      exact hbne p q
    have hdw : (it.map (swp f t)).dropWhile (fun q => q.1 != (swp f t p).1) = (it.dropWhile (fun q => q.1 != p.1)).map (swp f t) := by
      rw [List.dropWhile_map]
      congr 2
      funext q
      exact hbne p q
    simp only [Dims.mergePure, hc, htw, hdw]
    split
    · rw [hnb, List.map_append, List.map_cons, ih]
    · rw [List.map_cons, ih]

private theorem swp_mergeAll (f t : Dim) : ∀ (ds : List Dims) (a m m' : Dims), GoodDims a → (∀ d ∈ ds, GoodDims d) →
    GoodDims (a.map (swp f t)) → (∀ d ∈ ds, GoodDims (d.map (swp f t))) →
    mergeAll a ds = .ok m → mergeAll (a.map (swp f t)) (ds.map (List.map (swp f t))) = .ok m' → m' = m.map (swp f t) := by
  intro ds
  induction ds with
  | nil => intro a m m' _ _ _ _ h h'; cases h; cases h'; rfl
  | cons b ds ih =>
    intro a m m' ga gd ga' gd' h h'
    simp only [mergeAll, List.map_cons, List.foldlM_cons, bind, Except.bind] at h h'
    cases h1 : Dims.merge a b with
    | error e => rw [h1] at h; cases h
    | ok o =>
    cases h2 : Dims.merge (a.map (swp f t)) (b.map (swp f t)) with
    | error e => rw [h2] at h'; cases h'
    | ok o' =>
    rw [h1] at h
    rw [h2] at h'
    obtain ⟨e1, g1⟩ := merge_pure ga (gd b List.mem_cons_self) h1
    obtain ⟨e2, g2⟩ := merge_pure ga' (gd' b List.mem_cons_self) h2
    have he : o' = o.map (swp f t) := by rw [e1, e2, swp_mergePure]
    subst he
    exact ih o m m' g1 (fun d hd => gd d (List.mem_cons_of_mem _ hd)) g2 (fun d hd => gd' d (List.mem_cons_of_mem _ hd)) h h'

private theorem addrAux_swp (f t : Dim) (c : Dim → Int) : ∀ (s : Dims) (st : List Int), addrAux (s.map (swp f t)) st c = addrAux s st (fun d => c (sw f t d)) := by
  intro s
  induction s with
  | nil => intro st; simp
  | cons p s ih =>
    intro st
    cases st with
    | nil => rfl
    | cons x st => rw [List.map_cons, addrAux_cons, addrAux_cons, ih]; rfl

private theorem position_swp (f t : Dim) (c : Dim → Int) (s : Dims) : position (s.map (swp f t)) c = position s (fun d => c (sw f t d)) := by
  unfold position
  rw [List.foldl_map]; rfl

private theorem swp_eq {f t : Dim} {s : Dims} (ht : t ∉ labels s) : s.map (fun p => (if p.1 = f then t else p.1, p.2)) = s.map (swp f t) := by
  apply List.map_congr_left
  intro p hp
  have : p.1 ≠ t := fun he => ht (he ▸ mem_labels (d := p.1) (x := p.2) hp)
  unfold swp sw
  by_cases h : p.1 = f <;> simp [h, this]

private theorem swp_id {f t : Dim} {s : Dims} (hf : f ∉ labels s) (ht : t ∉ labels s) : s.map (swp f t) = s := by
  conv_rhs => rw [← List.map_id s]
  apply List.map_congr_left
  intro p hp
  have h1 : p.1 ≠ t := fun he => ht (he ▸ mem_labels (d := p.1) (x := p.2) hp)
  have h2 : p.1 ≠ f := fun he => hf (he ▸ mem_labels (d := p.1) (x := p.2) hp)
  simp [swp, sw, h1, h2]

/-- **C105** (renaming): renaming a dim of all operands, where present, to a name that is not in use gives the same result with the dim renamed: the dims
are in the same order, and the memory has the same content. -/
theorem C105_rename (op : (Fin (N + 1) → V) → V) (ins ins' : Fin (N + 1) → Operand V) (f t : Dim) (hti : t ≠ Dim.invalid) (dims dims' : Dims)
    (mem₁ mem₂ r r' : Int → V) (hg : ∀ i, GoodOperand (ins i)) (hb : ∀ i, (ins i).buf ≠ none) (ht : ∀ i, t ∉ labels (ins i).view.dims)
    (hs : ∀ i, (ins i).Renamed f t (ins' i)) (h : Transform op ins dims mem₁ r) (h' : Transform op ins' dims' mem₂ r') :
    dims' = dims.map (fun p => (if p.1 = f then t else p.1, p.2)) ∧ ∀ c, InDims dims c → r' (position dims c) = r (position dims c) := by
  have hd : ∀ i, (ins' i).view.dims = (ins i).view.dims.map (swp f t) ∧ (ins' i).view.strides = (ins i).view.strides ∧
      (ins' i).view.offset = (ins i).view.offset := by
    intro i
    have h3 := (hs i).2
    split at h3
    · rename_i hf
      have hn := (hg i).1.1.1
      obtain ⟨-, h5, h6, -⟩ := C08_rename_view _ _ _ _ hn h3
      refine ⟨?_, h5, h6⟩
      have hr := C08_rename_simultaneous [(f, t)] true (ins i).view.dims hn (by simp) (by simpa using hf) (by simp) (by simpa using ht i)
      simp only [View.renameDims, bind, Except.bind, hr] at h3
      rw [← Except.ok.inj h3, ← swp_eq (ht i)]
      dsimp only
      apply List.map_congr_left
      intro p _
      by_cases hp : p.1 = f
      · simp [substLabel, hp]
      · simp [substLabel, hp, Ne.symm hp]
    · rename_i hf
      rw [h3]
      exact ⟨(swp_id hf (ht i)).symm, rfl, rfl⟩
  have hgd : ∀ s : Dims, GoodDims s → t ∉ labels s → GoodDims (s.map (swp f t)) := by
    intro s hs ht
    have hl : labels (s.map (swp f t)) = (labels s).map (sw f t) := by unfold labels; rw [List.map_map, List.map_map]; rfl
    refine ⟨⟨?_, ?_⟩, ?_⟩
    · rw [hl]
      exact hs.1.1.map fun a b hab => sw_inj hab
    · intro p hp
      obtain ⟨q, hq, rfl⟩ := List.mem_map.1 hp
      exact hs.1.2 q hq
    · rw [hl]
      intro hi
      obtain ⟨d, hd, he⟩ := List.mem_map.1 hi
      unfold sw at he
      split at he
      · exact hti he
      · split at he
        · rename_i h1; exact ht (h1 ▸ hd)
        · exact hs.2 (he ▸ hd)
  have hg' : ∀ i, GoodOperand (ins' i) := fun i => by
    obtain ⟨e1, e2, -⟩ := hd i
    have := hgd _ (good_dims (hg i)) (ht i)
    rw [← e1] at this
    exact ⟨⟨this.1, by rw [e2, e1, List.length_map]; exact (hg i).1.2.1, by rw [e2]; exact (hg i).1.2.2⟩, this.2⟩
  have hb' : ∀ i, (ins' i).buf ≠ none := fun i => by rw [(hs i).1]; exact hb i
  obtain ⟨k1, k2, -⟩ := C12_transform op ins dims mem₁ r hg hb h
  obtain ⟨-, k2', -⟩ := C12_transform op ins' dims' mem₂ r' hg' hb' h'
  have htd : t ∉ labels dims := by
    intro hi
    obtain ⟨n, hn⟩ := at?_ok_of_mem_labels hi
    obtain ⟨i, hi'⟩ := (k1 _).1 (at?_ok_mem hn)
    exact ht i (mem_labels hi')
  have hdd : dims' = dims.map (swp f t) := by
    refine swp_mergeAll f t ((List.finRange N).map (fun i => (ins i.succ).view.dims)) _ dims dims' (good_dims (hg 0)) ?_ (hgd _ (good_dims (hg 0)) (ht 0)) ?_ h.1 ?_
    · intro d hd'; obtain ⟨i, -, rfl⟩ := List.mem_map.1 hd'; exact good_dims (hg _)
    · intro d hd'; obtain ⟨i, -, rfl⟩ := List.mem_map.1 hd'; exact hgd _ (good_dims (hg _)) (ht _)
    · have := h'.1
      rw [(hd 0).1] at this
      rw [← this, List.map_map]
      congr 1
      exact List.map_congr_left fun i _ => ((hd i.succ).1).symm
  refine ⟨hdd.trans (swp_eq htd).symm, fun c hc => ?_⟩
  have hss : (fun d => (fun d => c (sw f t d)) (sw f t d)) = c := by funext d; simp only [sw_sw]
  have hpos : position dims c = position dims' (fun d => c (sw f t d)) := by rw [hdd, position_swp, hss]
  have hin : InDims dims' (fun d => c (sw f t d)) := by
    intro d n hm
    rw [hdd] at hm
    obtain ⟨q, hq, he⟩ := List.mem_map.1 hm
    cases he
    show 0 ≤ c (sw f t (sw f t q.1)) ∧ c (sw f t (sw f t q.1)) < q.2
    rw [sw_sw]
    exact hc q.1 q.2 hq
  conv_lhs => rw [hpos]
  rw [k2' _ hin, k2 c hc]
  congr 1
  funext i
  obtain ⟨e1, e2, e3⟩ := hd i
  rw [same_read (hs i).1 (hb i) mem₁ mem₂]
  congr 1
  unfold View.addr
  rw [e1, e2, e3, addrAux_swp, hss]

/-! ### reductions -/

/-- The result of a reduction. -/
private theorem reduce_facts {op : V → V → V} {init : V} {x : Operand V} {f : Int → V} {dim : Dim} {n : Int} (hg : GoodOperand x) (hf : x.buf = some f)
    (hd : (dim, n) ∈ x.view.dims) (hz : ¬ ReducesBroadcast x.view dim) {dims : Dims} {mem : Int → V}
    (h : reduceDimView op init x dim (.ok (dims, mem))) :
    labels dims = (labels x.view.dims).filter (· ≠ dim) ∧ (∀ d m, (d, m) ∈ dims ↔ (d, m) ∈ x.view.dims ∧ d ≠ dim) ∧ GoodDims dims ∧
    (∀ c, InDims dims c → mem (position dims c) = foldOver op init (intRange 0 n) (fun j => f (x.view.addr (upd c dim j)))) := by
  obtain ⟨pre, post, hpp⟩ := List.append_of_mem hd
  obtain ⟨h1, h2, -⟩ := C57_reduce_partial op init x f pre post dim n hg hf hpp hz dims mem h
  have hnd : (labels (pre ++ (dim, n) :: post)).Nodup := by rw [← hpp]; exact hg.1.1.1
  have hnot : ∀ d m, (d, m) ∈ pre ++ post → d ≠ dim := by
    intro d m hm he
    subst he
    rw [labels_append, labels_cons, List.nodup_append] at hnd
    rcases List.mem_append.1 hm with hm | hm
    · exact hnd.2.2 _ (mem_labels hm) _ List.mem_cons_self rfl
    · exact (List.nodup_cons.1 hnd.2.1).1 (mem_labels hm)
  have hlab : labels dims = (labels x.view.dims).filter (· ≠ dim) := by
    rw [h1, hpp, labels_append, labels_append, labels_cons, List.filter_append, List.filter_cons]
    have hid : ∀ l : Dims, (∀ d m, (d, m) ∈ l → d ≠ dim) → (labels l).filter (· ≠ dim) = labels l := by
      intro l hl
      rw [List.filter_eq_self]
      intro d hd'
      obtain ⟨m, hm⟩ := at?_ok_of_mem_labels hd'
      simpa using hl d m (at?_ok_mem hm)
    rw [hid pre fun d m hm => hnot d m (List.mem_append_left _ hm), hid post fun d m hm => hnot d m (List.mem_append_right _ hm)]
    simp
  have hmem : ∀ d m, (d, m) ∈ dims ↔ (d, m) ∈ x.view.dims ∧ d ≠ dim := by
    intro d m
    rw [h1, hpp]
    constructor
    · intro hm
      refine ⟨?_, hnot d m hm⟩
      rcases List.mem_append.1 hm with hm | hm
      · exact List.mem_append_left _ hm
      · exact List.mem_append_right _ (List.mem_cons_of_mem _ hm)
    · rintro ⟨hm, hne⟩
      rcases List.mem_append.1 hm with hm | hm
      · exact List.mem_append_left _ hm
      · rcases List.mem_cons.1 hm with he | hm
        · cases he; exact absurd rfl hne
        · exact List.mem_append_right _ hm
  refine ⟨hlab, hmem, ⟨⟨?_, ?_⟩, ?_⟩, h2⟩
  · rw [hlab]; exact hg.1.1.1.filter _
  · rintro ⟨d, m⟩ hm; exact hg.1.1.2 _ ((hmem d m).1 hm).1
  · rw [hlab]; exact fun hi => hg.2 (List.mem_of_mem_filter hi)

private theorem upd_comm {c : Dim → Int} {d e : Dim} {x y : Int} (h : d ≠ e) : upd (upd c d x) e y = upd (upd c e y) d x := by
  funext a
  unfold upd
  by_cases h1 : a = e
  · subst h1; simp [Ne.symm h]
  · simp [h1]

/-- **C105** (reductions and slicing; the part that holds): reducing along a dim and slicing along another one can be exchanged: the dims are the same, in the same
order, and so are all elements. -/
theorem C105_reduce_slice_partial (op : V → V → V) (init : V) (x x' : Operand V) (f : Int → V) (dim : Dim) (n : Int) (p : Slice) (hp : p.Constructed)
    (hg : GoodOperand x) (hf : x.buf = some f) (hd : (dim, n) ∈ x.view.dims) (hpd : p.dim ∈ labels x.view.dims) (hne : p.dim ≠ dim)
    (hs : x.Sliced p x') (hz : ¬ ReducesBroadcast x.view dim) (hz' : ¬ ReducesBroadcast x'.view dim) (dims dims' : Dims) (mem mem' : Int → V)
    (h : reduceDimView op init x dim (.ok (dims, mem))) (h' : reduceDimView op init x' dim (.ok (dims', mem'))) :
    ∃ out, (View.fresh dims).slice p = .ok out ∧ dims' = out.dims ∧ ∀ c, InDims dims' c → mem' (position dims' c) = mem (out.addr c) := by
  have hg' := sliced_good hg hp hs
  have hsl : x.view.slice p = .ok x'.view := by have := hs.2; rwa [if_pos hpd] at this
  obtain ⟨s1, s2, s3, s4, s5⟩ := slice_facts hg.1 hp hsl
  obtain ⟨a1, a2, a3, a4⟩ := reduce_facts hg hf hd hz h
  obtain ⟨b1, b2, b3, b4⟩ := reduce_facts hg' (hs.1.trans hf) ((s3 dim n (Ne.symm hne)).2 hd) hz' h'
  have hwf := fresh_WF a3.1
  obtain ⟨m, hm, hle⟩ := (C04_slice_accepts_iff _ p hg.1 hp).1.1 ⟨_, hsl⟩
  obtain ⟨out, hout⟩ := (C04_slice_accepts_iff (View.fresh dims) p hwf hp).1.2 ⟨m, (a2 _ _).2 ⟨hm, hne⟩, hle⟩
  obtain ⟨o1, o2, o3, o4, o5⟩ := slice_facts hwf hp hout
  have hfo : labels (View.fresh dims).dims = labels dims := rfl
  have hw' := View.slice_wf hwf hp hout
  have hlab : labels dims' = labels out.dims := by
    by_cases he : p.stop = -1
    · rw [b1, o4 he, s4 he, hfo, a1, List.filter_filter, List.filter_filter]
      congr 1
      funext d
      exact Bool.and_comm _ _
    · rw [b1, (o5 he).1, (s5 he).1, hfo, a1]
  have hmem : ∀ q, q ∈ dims' ↔ q ∈ out.dims := by
    rintro ⟨d, k⟩
    by_cases hdp : d = p.dim
    · subst hdp
      rw [b2]
      by_cases he : p.stop = -1
      · constructor
        · rintro ⟨hi, -⟩
          have hl := mem_labels hi
          rw [s4 he] at hl
          simpa using List.of_mem_filter hl
        · intro hi
          have hl := mem_labels hi
          rw [o4 he] at hl
          simpa using List.of_mem_filter hl
      · obtain ⟨-, m1, hm1, he1⟩ := s5 he
        obtain ⟨-, m2, hm2, he2⟩ := o5 he
        have e12 : m1 = m2 := extent_unique he1 he2 (hg'.1.1.2 _ hm1) (hw'.1.2 _ hm2)
        subst e12
        constructor
        · rintro ⟨hi, -⟩
          have h1 := at?_of_mem hg'.1.1.1 hi
          have h2 := at?_of_mem hg'.1.1.1 hm1
          rw [h1] at h2; cases h2
          exact hm2
        · intro hi
          have h1 := at?_of_mem hw'.1.1 hi
          have h2 := at?_of_mem hw'.1.1 hm2
          rw [h1] at h2; cases h2
          exact ⟨hm1, hne⟩
    · rw [b2, o3 d k hdp, s3 d k hdp]
      exact (a2 d k).symm
  refine ⟨out, hout, labels_eq_iff b3.1.1 hlab hmem, fun c hc => ?_⟩
  have hc' : InDims out.dims c := fun d k hm => hc d k ((hmem _).2 hm)
  rw [b4 c hc, o1 c, fresh_addr, a4 _ (o2 c hc')]
  congr 1
  funext j
  rw [s1]
  congr 2
  unfold sliceCoords
  rw [upd_comm hne]
  congr 2
  simp [upd, hne]

/-- **C105** (reductions and transposing; the part that holds): transposing first does not change any element of the result. -/
theorem C105_reduce_transpose_partial (op : V → V → V) (init : V) (x x' : Operand V) (f : Int → V) (dim : Dim) (n : Int)
    (hg : GoodOperand x) (hf : x.buf = some f) (hd : (dim, n) ∈ x.view.dims) (hs : x.Transposed x')
    (hz : ¬ ReducesBroadcast x.view dim) (hz' : ¬ ReducesBroadcast x'.view dim) (dims dims' : Dims) (mem mem' : Int → V)
    (h : reduceDimView op init x dim (.ok (dims, mem))) (h' : reduceDimView op init x' dim (.ok (dims', mem'))) :
    (∀ q, q ∈ dims' ↔ q ∈ dims) ∧ ∀ c, InDims dims c → mem' (position dims' c) = mem (position dims c) := by
  obtain ⟨o, ho⟩ := hs.2
  obtain ⟨-, t2, t3, -⟩ := C03_transpose_elements _ _ o hg.1 ho
  have hg' : GoodOperand x' := ⟨(View.transpose_ok hg.1 ho).2.2.2.2.2.1, fun hi => by
    obtain ⟨n, hn⟩ := at?_ok_of_mem_labels hi
    exact hg.2 (mem_labels ((t2 _ _).1 (at?_ok_mem hn)))⟩
  obtain ⟨-, a2, -, a4⟩ := reduce_facts hg hf hd hz h
  obtain ⟨-, b2, -, b4⟩ := reduce_facts hg' (hs.1.trans hf) ((t2 dim n).2 hd) hz' h'
  have hset : ∀ q, q ∈ dims' ↔ q ∈ dims := by rintro ⟨d, k⟩; rw [b2, a2, t2]
  refine ⟨hset, fun c hc => ?_⟩
  rw [a4 c hc, b4 c fun d k hm => hc d k ((hset _).1 hm)]
  congr 1
  funext j
  rw [t3]

private theorem intRange_shift (k n : Int) : intRange k n = (intRange 0 (n - k)).map (k + ·) := by
  unfold intRange
  rw [List.map_map, Int.sub_zero]
  apply List.map_congr_left
  intro j _
  simp

/-- **C105** (reducing parts; the part that holds): the sum is the sum of the sums of two parts. -/
theorem C105_reduce_parts_partial (op : V → V → V) (init : V) (hop : CommMonoidOp op init) (x a b : Operand V) (f : Int → V) (dim : Dim) (n k : Int)
    (hk : 0 ≤ k) (hkn : k ≤ n) (hg : GoodOperand x) (hf : x.buf = some f) (hd : (dim, n) ∈ x.view.dims)
    (hpc : Slice.Constructed ⟨dim, 0, k, 1⟩) (hqc : Slice.Constructed ⟨dim, k, n, 1⟩) (hp : x.Sliced ⟨dim, 0, k, 1⟩ a) (hq : x.Sliced ⟨dim, k, n, 1⟩ b)
    (hz : ¬ ReducesBroadcast x.view dim) (hza : ¬ ReducesBroadcast a.view dim) (hzb : ¬ ReducesBroadcast b.view dim) (dims da db : Dims)
    (mem ma mb : Int → V) (h : reduceDimView op init x dim (.ok (dims, mem))) (h₁ : reduceDimView op init a dim (.ok (da, ma)))
    (h₂ : reduceDimView op init b dim (.ok (db, mb))) :
    da = dims ∧ db = dims ∧ ∀ c, InDims dims c → mem (position dims c) = op (ma (position dims c)) (mb (position dims c)) := by
  have hl := mem_labels hd
  have h3 : x.view.slice ⟨dim, 0, k, 1⟩ = .ok a.view := by have := hp.2; rwa [if_pos hl] at this
  have h4 : x.view.slice ⟨dim, k, n, 1⟩ = .ok b.view := by have := hq.2; rwa [if_pos hl] at this
  have hga := sliced_good hg hpc hp
  have hgb := sliced_good hg hqc hq
  obtain ⟨s1, s2, s3, -, s5⟩ := slice_facts hg.1 hpc h3
  obtain ⟨t1, t2, t3, -, t5⟩ := slice_facts hg.1 hqc h4
  have e1 : (⟨dim, 0, k, 1⟩ : Slice).stop ≠ -1 := by show k ≠ -1; omega
  have e2 : (⟨dim, k, n, 1⟩ : Slice).stop ≠ -1 := by show n ≠ -1; omega
  obtain ⟨sl, na, hna, hea⟩ := s5 e1
  obtain ⟨tl, nb, hnb, heb⟩ := t5 e2
  have hna' : na = k := by
    refine extent_unique (P := fun i => i < k) (fun i hi => ?_) (fun i _ => Iff.rfl) (hga.1.1.2 _ hna) hk
    have := hea i hi; simpa using this
  have hnb' : nb = n - k := by
    refine extent_unique (P := fun i => i < n - k) (fun i hi => ?_) (fun i _ => Iff.rfl) (hgb.1.1.2 _ hnb) (by omega)
    have := heb i hi
    simp only [mul_one] at this
    omega
  subst hna'
  subst hnb'
  obtain ⟨a1, a2, a3, a4⟩ := reduce_facts hg hf hd hz h
  obtain ⟨b1, b2, b3, b4⟩ := reduce_facts hga (hp.1.trans hf) hna hza h₁
  obtain ⟨c1, c2, c3, c4⟩ := reduce_facts hgb (hq.1.trans hf) hnb hzb h₂
  have hda : da = dims := by
    refine labels_eq_iff b3.1.1 (by rw [b1, a1, sl]) ?_
    rintro ⟨d, m⟩
    rw [b2, a2]
    exact ⟨fun ⟨u, w⟩ => ⟨(s3 d m w).1 u, w⟩, fun ⟨u, w⟩ => ⟨(s3 d m w).2 u, w⟩⟩
  have hdb : db = dims := by
    refine labels_eq_iff c3.1.1 (by rw [c1, a1, tl]) ?_
    rintro ⟨d, m⟩
    rw [c2, a2]
    exact ⟨fun ⟨u, w⟩ => ⟨(t3 d m w).1 u, w⟩, fun ⟨u, w⟩ => ⟨(t3 d m w).2 u, w⟩⟩
  subst hda
  subst hdb
  refine ⟨rfl, rfl, fun c hc => ?_⟩
  have hadr : ∀ j, a.view.addr (upd c dim j) = x.view.addr (upd c dim j) := by
    intro j
    rw [s1]
    congr 1
    unfold sliceCoords
    rw [if_neg e1]
    funext d
    unfold upd
    by_cases hdd : d = dim <;> simp [hdd]
  have hbdr : ∀ j, b.view.addr (upd c dim j) = x.view.addr (upd c dim (na + j)) := by
    intro j
    rw [t1]
    congr 1
    unfold sliceCoords
    rw [if_neg e2]
    funext d
    unfold upd
    by_cases hdd : d = dim <;> simp [hdd]
  rw [a4 c hc, b4 c hc, c4 c hc]
  have hsplit : intRange 0 n = intRange 0 na ++ intRange na n := by
    rw [← intRange_append hk hkn]
  rw [hsplit, foldOver_append hop, intRange_shift na n]
  congr 1
  · congr 1
    funext j
    rw [hadr]
  · unfold foldOver
    rw [List.foldl_map]
    congr 1
    funext acc j
    show op acc (f (x.view.addr (upd c dim (na + j)))) = op acc (f (b.view.addr (upd c dim j)))
    rw [hbdr]

/-- **C105** (order of reductions; the part that holds): reducing along two dims gives the same dims and elements in either order. -/
theorem C105_reduce_order_partial (op : V → V → V) (init : V) (hop : CommMonoidOp op init) (x : Operand V) (f : Int → V) (d e : Dim) (n m : Int) (hne : d ≠ e)
    (hg : GoodOperand x) (hf : x.buf = some f) (hd : (d, n) ∈ x.view.dims) (he : (e, m) ∈ x.view.dims)
    (d₁ d₂ d₁₂ d₂₁ : Dims) (m₁ m₂ m₁₂ m₂₁ : Int → V)
    (hz₁ : ¬ ReducesBroadcast x.view d) (hz₂ : ¬ ReducesBroadcast x.view e)
    (hz₁₂ : ¬ ReducesBroadcast (View.fresh d₁) e) (hz₂₁ : ¬ ReducesBroadcast (View.fresh d₂) d)
    (h₁ : reduceDimView op init x d (.ok (d₁, m₁))) (h₁₂ : reduceDimView op init ⟨View.fresh d₁, some m₁⟩ e (.ok (d₁₂, m₁₂)))
    (h₂ : reduceDimView op init x e (.ok (d₂, m₂))) (h₂₁ : reduceDimView op init ⟨View.fresh d₂, some m₂⟩ d (.ok (d₂₁, m₂₁))) :
    d₁₂ = d₂₁ ∧ ∀ c, InDims d₁₂ c → m₁₂ (position d₁₂ c) = m₂₁ (position d₁₂ c) := by
  obtain ⟨a1, a2, a3, a4⟩ := reduce_facts hg hf hd hz₁ h₁
  obtain ⟨b1, b2, b3, b4⟩ := reduce_facts hg hf he hz₂ h₂
  have hw1 : GoodOperand (⟨View.fresh d₁, some m₁⟩ : Operand V) := ⟨fresh_WF a3.1, a3.2⟩
  have hw2 : GoodOperand (⟨View.fresh d₂, some m₂⟩ : Operand V) := ⟨fresh_WF b3.1, b3.2⟩
  have he1 : (e, m) ∈ d₁ := (a2 _ _).2 ⟨he, Ne.symm hne⟩
  have hd2 : (d, n) ∈ d₂ := (b2 _ _).2 ⟨hd, hne⟩
  obtain ⟨p1, p2, p3, p4⟩ := reduce_facts hw1 rfl he1 hz₁₂ h₁₂
  obtain ⟨q1, q2, q3, q4⟩ := reduce_facts hw2 rfl hd2 hz₂₁ h₂₁
  have hdims : d₁₂ = d₂₁ := by
    refine labels_eq_iff p3.1.1 ?_ ?_
    · rw [p1, q1]
      show (labels d₁).filter _ = (labels d₂).filter _
      rw [a1, b1, List.filter_filter, List.filter_filter]
      congr 1
      funext k
      exact Bool.and_comm _ _
    · rintro ⟨k, w⟩
      rw [p2, q2]
      show (k, w) ∈ d₁ ∧ _ ↔ (k, w) ∈ d₂ ∧ _
      rw [a2, b2]
      tauto
  refine ⟨hdims, fun c hc => ?_⟩
  have hin : ∀ i j, i ∈ intRange 0 n → j ∈ intRange 0 m → InDims x.view.dims (upd (upd c d i) e j) := by
    intro i j hi hj k w hkw
    by_cases hk1 : k = e
    · subst hk1
      have h1 := at?_of_mem hg.1.1.1 hkw
      have h2 := at?_of_mem hg.1.1.1 he
      rw [h1] at h2; cases h2
      have := mem_intRange.1 hj
      simpa [upd] using this
    · by_cases hk2 : k = d
      · subst hk2
        have h1 := at?_of_mem hg.1.1.1 hkw
        have h2 := at?_of_mem hg.1.1.1 hd
        rw [h1] at h2; cases h2
        have := mem_intRange.1 hi
        simpa [upd, hk1] using this
      · have := hc k w ((p2 k w).2 ⟨(a2 k w).2 ⟨hkw, hk2⟩, hk1⟩)
        simpa [upd, hk1, hk2] using this
  rw [p4 c hc]
  conv_rhs => rw [hdims]
  rw [q4 c (hdims ▸ hc)]
  have hL : foldOver op init (intRange 0 m) (fun j => m₁ ((View.fresh d₁).addr (upd c e j))) =
      foldOver op init (intRange 0 m) (fun j => foldOver op init (intRange 0 n) (fun i => f (x.view.addr (upd (upd c d i) e j)))) := by
    apply foldOver_congr
    intro j hj
    rw [fresh_addr, a4]
    · congr 1
      funext i
      rw [upd_comm hne]
    · intro k w hkw
      obtain ⟨u1, u2⟩ := (a2 k w).1 hkw
      by_cases hk1 : k = e
      · subst hk1
        have h1 := at?_of_mem hg.1.1.1 u1
        have h2 := at?_of_mem hg.1.1.1 he
        rw [h1] at h2; cases h2
        have := mem_intRange.1 hj
        simpa [upd] using this
      · have := hc k w ((p2 k w).2 ⟨hkw, hk1⟩)
        simpa [upd, hk1] using this
  have hR : foldOver op init (intRange 0 n) (fun i => m₂ ((View.fresh d₂).addr (upd c d i))) =
      foldOver op init (intRange 0 n) (fun i => foldOver op init (intRange 0 m) (fun j => f (x.view.addr (upd (upd c d i) e j)))) := by
    apply foldOver_congr
    intro i hi
    rw [fresh_addr, b4]
    intro k w hkw
    obtain ⟨u1, u2⟩ := (b2 k w).1 hkw
    by_cases hk1 : k = d
    · subst hk1
      have h1 := at?_of_mem hg.1.1.1 u1
      have h2 := at?_of_mem hg.1.1.1 hd
      rw [h1] at h2; cases h2
      have := mem_intRange.1 hi
      simpa [upd] using this
    · have := hc k w (by rw [hdims]; exact (q2 k w).2 ⟨hkw, hk1⟩)
      simpa [upd, hk1] using this
  exact hL.trans ((foldOver_swap hop _ _ _).trans hR.symm)

/-- **C105** (sums of sums; the part that holds): for operands with the same dims, the sum of the elementwise sum is the sum of the sums. -/
theorem C105_reduce_linear_partial (op : V → V → V) (init : V) (hop : CommMonoidOp op init) (a b : Operand V) (f g : Int → V) (dim : Dim) (n : Int)
    (hga : GoodOperand a) (hgb : GoodOperand b) (hfa : a.buf = some f) (hfb : b.buf = some g) (hsame : ∀ q, q ∈ a.view.dims ↔ q ∈ b.view.dims)
    (hd : (dim, n) ∈ a.view.dims) (dims ds da db : Dims) (mem r ms ma mb : Int → V)
    (ht : Transform (fun v : Fin 2 → V => op (v 0) (v 1)) ![a, b] dims mem r)
    (hza : ¬ ReducesBroadcast a.view dim) (hzb : ¬ ReducesBroadcast b.view dim) (hz : ¬ ReducesBroadcast (View.fresh dims) dim)
    (h₁ : reduceDimView op init a dim (.ok (da, ma))) (h₂ : reduceDimView op init b dim (.ok (db, mb)))
    (h : reduceDimView op init ⟨View.fresh dims, some r⟩ dim (.ok (ds, ms))) :
    (∀ q, q ∈ ds ↔ q ∈ da) ∧ (∀ q, q ∈ ds ↔ q ∈ db) ∧
    ∀ c, InDims ds c → ms (position ds c) = op (ma (position da c)) (mb (position db c)) := by
  have hgs : ∀ i : Fin 2, GoodOperand ((![a, b] : Fin 2 → Operand V) i) :=
    Fin.forall_fin_two.2 ⟨hga, hgb⟩
  have hbs : ∀ i : Fin 2, ((![a, b] : Fin 2 → Operand V) i).buf ≠ none := by
    refine Fin.forall_fin_two.2 ⟨?_, ?_⟩
    · show a.buf ≠ none; rw [hfa]; simp
    · show b.buf ≠ none; rw [hfb]; simp
  obtain ⟨k1, k2, -⟩ := C12_transform _ _ dims mem r hgs hbs ht
  have hgd := merged_good hgs ht
  have hset : ∀ q, q ∈ dims ↔ q ∈ a.view.dims := by
    intro q
    rw [k1]
    constructor
    · rintro ⟨i, hi⟩
      revert hi
      refine Fin.forall_fin_two (p := fun i => q ∈ ((![a, b] : Fin 2 → Operand V) i).view.dims → q ∈ a.view.dims).2 ⟨id, (hsame q).2⟩ i
    · intro hq; exact ⟨0, hq⟩
  have hw : GoodOperand (⟨View.fresh dims, some r⟩ : Operand V) := ⟨fresh_WF hgd.1, hgd.2⟩
  obtain ⟨-, a2, -, a4⟩ := reduce_facts hga hfa hd hza h₁
  obtain ⟨-, b2, -, b4⟩ := reduce_facts hgb hfb ((hsame _).1 hd) hzb h₂
  obtain ⟨-, p2, -, p4⟩ := reduce_facts hw rfl ((hset _).2 hd) hz h
  have sa : ∀ q, q ∈ ds ↔ q ∈ da := by rintro ⟨k, w⟩; rw [p2, a2]; exact and_congr_left' (hset _)
  have sb : ∀ q, q ∈ ds ↔ q ∈ db := by rintro ⟨k, w⟩; rw [p2, b2]; exact and_congr_left' ((hset _).trans (hsame _))
  refine ⟨sa, sb, fun c hc => ?_⟩
  rw [p4 c hc, a4 c fun k w hm => hc k w ((sa _).2 hm), b4 c fun k w hm => hc k w ((sb _).2 hm), ← foldOver_add hop]
  apply foldOver_congr
  intro j hj
  dsimp only
  rw [fresh_addr, k2]
  · show op (a.read mem _) (b.read mem _) = _
    unfold Operand.read
    rw [hfa, hfb]; rfl
  · intro k w hkw
    by_cases hk : k = dim
    · subst hk
      have h1 := at?_of_mem hgd.1.1 hkw
      have h2 := at?_of_mem hgd.1.1 ((hset _).2 hd)
      rw [h1] at h2; cases h2
      have := mem_intRange.1 hj
      simpa [upd] using this
    · have := hc k w ((p2 k w).2 ⟨hkw, hk⟩)
      simpa [upd, hk] using this

/-! ### where the claim fails -/

/-- Dims [y, x] and [z, y] with y = 2, x = 3, z = 4. -/
private def orderA : Operand Int := ⟨⟨[(2, 2), (3, 3)], [3, 1], 0, false⟩, some id⟩
private def orderB : Operand Int := ⟨⟨[(4, 4), (2, 2)], [2, 1], 0, false⟩, some id⟩
private def orderA' : Operand Int := ⟨⟨[(3, 3)], [1], 0, false⟩, some id⟩
private def orderB' : Operand Int := ⟨⟨[(4, 4)], [2], 0, false⟩, some id⟩

private theorem goodA : GoodOperand orderA := ⟨⟨⟨by decide, by decide⟩, rfl, by decide⟩, by decide⟩
private theorem goodB : GoodOperand orderB := ⟨⟨⟨by decide, by decide⟩, rfl, by decide⟩, by decide⟩

/-- **C105** fails for the order of dims: `(a + b)['y', 0]` has dims (z, x), but `a['y', 0] + b['y', 0]` has dims (x, z), so that the two are not
identical (`C54`). -/
theorem C105_wrong_dim_order :
    ∃ (ins ins' : Fin 2 → Operand Int) (p : Slice) (dims dims' : Dims) (r r' : Int → Int), p.Constructed ∧ (∀ i, GoodOperand (ins i)) ∧
      (∀ i, (ins i).Sliced p (ins' i)) ∧ Transform (fun v => v 0 + v 1) ins dims (fun _ => 0) r ∧
      Transform (fun v => v 0 + v 1) ins' dims' (fun _ => 0) r' ∧
      ∃ out, (View.fresh dims).slice p = .ok out ∧ out.dims = [(4, 4), (3, 3)] ∧ dims' = [(3, 3), (4, 4)] := by
  have hg : ∀ i : Fin 2, GoodOperand ((![orderA, orderB] : Fin 2 → Operand Int) i) := Fin.forall_fin_two.2 ⟨goodA, goodB⟩
  have hg' : ∀ i : Fin 2, GoodOperand ((![orderA', orderB'] : Fin 2 → Operand Int) i) :=
    Fin.forall_fin_two.2 ⟨⟨⟨⟨by decide, by decide⟩, rfl, by decide⟩, by decide⟩, ⟨⟨⟨by decide, by decide⟩, rfl, by decide⟩, by decide⟩⟩
  obtain ⟨r, hr⟩ := C12_transform_terminates (fun v => v (0 : Fin 2) + v 1) _ [(4, 4), (2, 2), (3, 3)] (fun _ => 0) hg (by decide) (by decide)
  obtain ⟨r', hr'⟩ := C12_transform_terminates (fun v => v (0 : Fin 2) + v 1) _ [(3, 3), (4, 4)] (fun _ => 0) hg' (by decide) (by decide)
  refine ⟨_, _, ⟨2, 0, -1, 1⟩, _, _, r, r', .inr rfl, hg, ?_, hr, hr', _, rfl, rfl, rfl⟩
  exact Fin.forall_fin_two.2 ⟨⟨rfl, rfl⟩, ⟨rfl, rfl⟩⟩

/-- **C105** fails for reductions of broadcast data: the sum of the 2 x 3 x 4 variable of `C57_wrong_for_broadcast` (a broadcast 2 x 4 variable) along
the broadcast dim differs from the sum along that dim of a copy of it, although both have the same elements. -/
theorem C105_wrong_for_broadcast :
    ∃ (x y : Operand Int) (mx my : Int → Int), x.view.dims = y.view.dims ∧
      (∀ c, InDims x.view.dims c → x.read (fun _ => 0) (x.view.addr c) = y.read (fun _ => 0) (y.view.addr c)) ∧
      reduceDimView (· + ·) 0 x 3 (.ok ([(2, 2), (4, 4)], mx)) ∧ reduceDimView (· + ·) 0 y 3 (.ok ([(2, 2), (4, 4)], my)) ∧ mx 1 = 1 ∧ my 1 = 3 := by
  obtain ⟨hg, -, mx, h1, -, h3, -⟩ := C57_wrong_for_broadcast
  let y : Operand Int := ⟨View.fresh [(2, 2), (3, 3), (4, 4)], some (fun k => 4 * (k / 12) + k % 4)⟩
  have hy : GoodOperand y := ⟨fresh_WF ⟨by decide, by decide⟩, by decide⟩
  have hz : ¬ ReducesBroadcast y.view 3 := by
    rintro ⟨pre, n, last, h, hne, hn, hs⟩
    have h' : ([(2, 2), (3, 3), (4, 4)] : Dims) = pre ++ [(3, n), last] := h
    have hlen : pre.length = 1 := by have := congrArg List.length h'; simp at this; omega
    rw [hlen] at hs
    exact absurd hs (by decide)
  obtain ⟨⟨r, hr⟩, hall⟩ := C57_reduce_runs_partial (· + ·) 0 y [(2, 2)] [(4, 4)] 3 3 hy (by simp [y]) rfl (by decide) hz
  obtain ⟨dims, my, rfl⟩ := hall r hr
  obtain ⟨e1, e2, -⟩ := C57_reduce_partial (· + ·) 0 y _ [(2, 2)] [(4, 4)] 3 3 hy rfl rfl hz dims my hr
  subst e1
  refine ⟨broadcastInput, y, mx, my, rfl, ?_, h1, hr, h3, ?_⟩
  · intro c hc
    have a2 := hc 2 2 (by decide)
    have a3 := hc 3 3 (by decide)
    have a4 := hc 4 4 (by decide)
    show broadcastInput.view.addr c = 4 * (y.view.addr c / 12) + y.view.addr c % 4
    have k1 : broadcastInput.view.addr c = 4 * c 2 + c 4 := by
      simp [View.addr, broadcastInput]; try ring
    have k2 : y.view.addr c = 12 * c 2 + 4 * c 3 + c 4 := by
      show (View.fresh [(2, 2), (3, 3), (4, 4)]).addr c = _
      rw [fresh_addr]
      simp [position]; try ring
    rw [k1, k2]; omega
  · have := e2 (fun d => if d = 4 then 1 else 0) (by intro d n hm; simp at hm; rcases hm with ⟨rfl, rfl⟩ | ⟨rfl, rfl⟩ <;> decide)
    exact this.trans (by decide)

/-! ### examples -/

private theorem not_short {v : View} (d : Dim) (h : v.dims.length ≤ 2) : ¬ ReducesBroadcast v d := by
  rintro ⟨pre, n, last, h', hne, _⟩
  rw [h'] at h
  cases pre with
  | nil => exact hne rfl
  | cons p pre => simp at h

private theorem runs2 {x : Operand Int} {dim : Dim} {n : Int} (hg : GoodOperand x) (hb : x.buf ≠ none) (hd : (dim, n) ∈ x.view.dims)
    (h : x.view.dims.length ≤ 2) : ∃ dims mem, reduceDimView (· + ·) 0 x dim (.ok (dims, mem)) := by
  obtain ⟨pre, post, hpp⟩ := List.append_of_mem hd
  obtain ⟨⟨r, hr⟩, hall⟩ := C57_reduce_runs_partial (· + ·) 0 x pre post dim n hg hb hpp (by omega) (not_short dim h)
  obtain ⟨dims, mem, rfl⟩ := hall r hr
  exact ⟨dims, mem, hr⟩

/-- `(a + b)['x', 1:3]` and `a['x', 1:3] + b` for dims [y, x] and [z, y]. -/
example : ∃ (ins' : Fin 2 → Operand Int) (dims dims' : Dims) (r r' : Int → Int),
    (∀ i, ((![orderA, orderB] : Fin 2 → Operand Int) i).Sliced ⟨3, 1, 3, 1⟩ (ins' i)) ∧ Transform (fun v => v 0 + v 1) ![orderA, orderB] dims (fun _ => 0) r ∧
    Transform (fun v => v 0 + v 1) ins' dims' (fun _ => 0) r' ∧ dims' = [(4, 4), (2, 2), (3, 2)] ∧
    ∀ c, InDims dims' c → r' (position dims' c) = r (position dims (upd c 3 (1 + c 3))) := by
  have hg : ∀ i : Fin 2, GoodOperand ((![orderA, orderB] : Fin 2 → Operand Int) i) := Fin.forall_fin_two.2 ⟨goodA, goodB⟩
  have hs : ∀ i : Fin 2, ((![orderA, orderB] : Fin 2 → Operand Int) i).Sliced ⟨3, 1, 3, 1⟩
      ((![⟨⟨[(2, 2), (3, 2)], [3, 1], 1, false⟩, some id⟩, orderB] : Fin 2 → Operand Int) i) :=
    Fin.forall_fin_two.2 ⟨⟨rfl, rfl⟩, ⟨rfl, rfl⟩⟩
  have hp : Slice.Constructed ⟨3, 1, 3, 1⟩ := .inl rfl
  obtain ⟨r, hr⟩ := C12_transform_terminates (fun v => v (0 : Fin 2) + v 1) _ [(4, 4), (2, 2), (3, 3)] (fun _ => 0) hg (by decide) (by decide)
  obtain ⟨r', hr'⟩ := C12_transform_terminates (fun v => v (0 : Fin 2) + v 1) _ [(4, 4), (2, 2), (3, 2)] (fun _ => 0)
    (fun i => sliced_good (hg i) hp (hs i)) (by decide) (by decide)
  obtain ⟨out, h1, -, -, h4⟩ := C105_slice_partial _ _ _ _ hp _ _ _ _ _ _ hg
    (Fin.forall_fin_two.2 ⟨Option.some_ne_none _, Option.some_ne_none _⟩) hs (by decide) hr hr'
  refine ⟨_, _, _, r, r', hs, hr, hr', rfl, fun c hc => ?_⟩
  rw [h4 c hc]
  have : out = ⟨[(4, 4), (2, 2), (3, 2)], [6, 3, 1], 1, false⟩ := (Except.ok.inj h1).symm.trans rfl
  subst this
  congr 1
  simp [View.addr, position, upd]
  ring

/-- `a.transpose() + b` has the elements of `a + b`. -/
example : ∃ (ins' : Fin 2 → Operand Int) (r r' : Int → Int), (∀ i, ((![orderA, orderB] : Fin 2 → Operand Int) i).Transposed (ins' i)) ∧
    Transform (fun v => v 0 + v 1) ![orderA, orderB] [(4, 4), (2, 2), (3, 3)] (fun _ => 0) r ∧
    Transform (fun v => v 0 + v 1) ins' [(3, 3), (4, 4), (2, 2)] (fun _ => 0) r' := by
  have hg : ∀ i : Fin 2, GoodOperand ((![orderA, orderB] : Fin 2 → Operand Int) i) := Fin.forall_fin_two.2 ⟨goodA, goodB⟩
  obtain ⟨r, hr⟩ := C12_transform_terminates (fun v => v (0 : Fin 2) + v 1) _ [(4, 4), (2, 2), (3, 3)] (fun _ => 0) hg (by decide) (by decide)
  have hg' : ∀ i : Fin 2, GoodOperand ((![⟨⟨[(3, 3), (2, 2)], [1, 3], 0, false⟩, some id⟩, orderB] : Fin 2 → Operand Int) i) :=
    Fin.forall_fin_two.2 ⟨⟨⟨⟨by decide, by decide⟩, rfl, by decide⟩, by decide⟩, goodB⟩
  obtain ⟨r', hr'⟩ := C12_transform_terminates (fun v => v (0 : Fin 2) + v 1) _ [(3, 3), (4, 4), (2, 2)] (fun _ => 0) hg' (by decide) (by decide)
  refine ⟨![⟨⟨[(3, 3), (2, 2)], [1, 3], 0, false⟩, some id⟩, orderB], r, r', ?_, hr, hr'⟩
  exact Fin.forall_fin_two.2 ⟨⟨rfl, [], rfl⟩, ⟨rfl, [4, 2], rfl⟩⟩

/-- `broadcast(a, [z, y, x]) + b` and `rename(x to w)`. -/
example : (orderA.Broadcast ⟨⟨[(4, 4), (2, 2), (3, 3)], [0, 3, 1], 0, true⟩, some id⟩) ∧ orderB.Broadcast orderB ∧
    orderA.Renamed 3 7 ⟨⟨[(2, 2), (7, 3)], [3, 1], 0, false⟩, some id⟩ ∧ orderB.Renamed 3 7 orderB :=
  ⟨⟨rfl, .inr ⟨[(4, 4), (2, 2), (3, 3)], ⟨by decide, by decide⟩, by decide, rfl⟩⟩, ⟨rfl, .inl rfl⟩, ⟨rfl, rfl⟩, ⟨rfl, rfl⟩⟩

/-- All reductions of the 2-D variable and of its slices run. -/
example : (∃ dims mem, reduceDimView (· + ·) 0 orderA 2 (.ok (dims, mem))) ∧ (∃ dims mem, reduceDimView (· + ·) 0 orderA 3 (.ok (dims, mem))) ∧
    (∃ dims mem, reduceDimView (· + ·) 0 (⟨⟨[(2, 2), (3, 2)], [3, 1], 1, false⟩, some id⟩ : Operand Int) 2 (.ok (dims, mem))) ∧
    orderA.Sliced ⟨3, 1, 3, 1⟩ ⟨⟨[(2, 2), (3, 2)], [3, 1], 1, false⟩, some id⟩ ∧
    orderA.Sliced ⟨3, 0, 1, 1⟩ ⟨⟨[(2, 2), (3, 1)], [3, 1], 0, false⟩, some id⟩ ∧ CommMonoidOp (fun a b : Int => a + b) 0 ∧
    CommMonoidOp (fun a b : Bool => a || b) false :=
  ⟨runs2 goodA (Option.some_ne_none _) (n := 2) (by decide) (by decide), runs2 goodA (Option.some_ne_none _) (n := 3) (by decide) (by decide),
    runs2 ⟨⟨⟨by decide, by decide⟩, rfl, by decide⟩, by decide⟩ (Option.some_ne_none _) (n := 2) (by decide) (by decide),
    ⟨rfl, rfl⟩, ⟨rfl, rfl⟩, ⟨fun x y z => by ring, fun x y => by ring, fun x => by ring⟩, ⟨by decide, by decide, by decide⟩⟩

end Scipp.Props
