import Verif.Lemmas.FlattenEdges
/-!
C49: flattening and folding data arrays with bin edges (`lib/dataset/shape.cpp` 177-301).
-/
namespace Scipp.Props
open Scipp Scipp.Sizes Scipp.Concat Scipp.Flat
variable {V : Type}

/-- **C49**, flattening a coord with bin edges along the innermost of the flattened dims. The data has dims `pre, outer, edge: n, post` and
the dims `outer, edge` are flattened to `toDim`; the coord may depend on any of `outer`. Partial: if the edges are not along the innermost
flattened dim, or the coord has further dims, the result can be wrong (`C49_wrong_for_outer_edge`, `C49_wrong_for_other_dims` below), and for
data without any rows the code throws (`C49_throws_for_empty`).

The coord is kept if and only if adjacent rows share an edge. Then the edges `j` and `j + 1` of every bin are found at the position of the bin
in the flattened data and the next one: the element of the output at `position * n + j` is the element of the input, for all
`j = 0, ..., n`. -/
theorem C49_flatten_edges_partial {eq : V → V → Bool} (heq : ∀ a b, eq a b = true → a = b) {data pre outer post : Dims} {edge toDim : Dim} {n : Int}
    {x : CVar V} (hdata : data = pre ++ outer ++ (edge, n) :: post) (hw : WF data) (hx : x.arr.Ok) (hedge : (edge, n + 1) ∈ x.dims)
    (hother : ∀ p ∈ x.dims, p.1 ≠ edge → p ∈ outer) (hrows : 1 ≤ Dims.volume outer) (hvalid : Dim.invalid ∉ labels data) (hto : toDim ≠ Dim.invalid) :
    (¬ Joinable eq x outer edge n → flattenItem eq data (labels outer ++ [edge]) toDim x = .ok none) ∧
    (Joinable eq x outer edge n → ∃ y, flattenItem eq data (labels outer ++ [edge]) toDim x = .ok (some y) ∧
      y.dims = [(toDim, Dims.volume outer * n + 1)] ∧ y.arr.Ok ∧ y.unit = x.unit ∧ y.kind = x.kind ∧
      ∀ c, InDims outer c → 0 ≤ c edge → c edge ≤ n →
        y.arr.val (upd c toDim (position outer c * n + c edge)) = x.arr.val c) := by
  have hxw : WF x.dims := hx.wf
  have hmem : ∀ p, p ∈ outer ++ [(edge, n)] → p ∈ data := by
    intro p hp
    rw [hdata]
    rcases List.mem_append.1 hp with h | h
    · simp [h]
    · simp at h; simp [h]
  have hnD := hw.1
  rw [hdata, labels_append, labels_append, labels_cons] at hnD
  obtain ⟨a1, a2, a3⟩ := List.nodup_append.1 hnD
  have hno : (labels outer).Nodup := (List.nodup_append.1 a1).2.1
  have heo : edge ∉ labels outer := fun hc => a3 edge (by simp [hc]) edge (by simp) rfl
  have hn : 0 ≤ n := hw.2 _ (hmem (edge, n) (by simp))
  have hmw : WF (outer ++ [(edge, n + 1)]) := by
    refine ⟨?_, ?_⟩
    · rw [labels_append]
      exact List.nodup_append.2 ⟨hno, by simp [labels], fun a ha b hb hab => by simp [labels] at hb; exact heo (by rw [← hb, ← hab]; exact ha)⟩
    · intro p hp
      rcases List.mem_append.1 hp with h | h
      · exact hw.2 p (hmem p (by simp [h]))
      · simp at h; rw [h]; exact Int.le_add_one hn
  have hei : edge ≠ Dim.invalid := fun hc => hvalid (hc ▸ mem_labels (hmem (edge, n) (by simp)))
  have hmi : Dim.invalid ∉ labels (outer ++ [(edge, n + 1)]) := by
    rw [labels_append]
    intro hc
    rcases List.mem_append.1 hc with h | h
    · obtain ⟨p, hp, hpe⟩ := List.mem_map.1 h
      exact hvalid (hpe ▸ mem_labels (hmem p (by simp [hp])))
    · simp [labels] at h; exact hei h.symm
  have hlab : labels (outer ++ [(edge, n + 1)]) = labels outer ++ [edge] := by rw [labels_append]; rfl
  obtain ⟨p1, p2, q1, q2, q3⟩ := maybeBroadcast_eq (D := data) (mid := outer ++ [(edge, n + 1)]) hx hmw hmi (by
    intro p hp
    unfold broadcastExtent
    by_cases hc : p.1 ∈ labels x.dims
    · rw [if_pos (contains_iff.2 hc)]
      rcases List.mem_append.1 hp with h | h
      · obtain ⟨r, hr, hrp⟩ := List.mem_map.1 hc
        have hre : r.1 ≠ edge := fun h1 => heo (by rw [← h1, hrp]; exact mem_labels h)
        have hro := hother r hr hre
        have h1 : at? outer r.1 = .ok r.2 := at?_of_mem hno hro
        rw [hrp, at?_of_mem hno h] at h1
        rw [← hrp, at?_of_mem hxw.1 hr, Except.ok.inj h1]
      · simp at h; rw [h]; exact at?_of_mem hxw.1 hedge
    · rw [if_neg (by rw [contains_false.2 hc]; decide)]
      rcases List.mem_append.1 hp with h | h
      · exact at?_of_mem hw.1 (hmem p (by simp [h]))
      · simp at h; rw [h] at hc; exact absurd (mem_labels hedge) hc) ⟨edge, mem_labels hedge, by rw [hlab]; simp⟩
  have hempty : ∀ p, ¬ (p ∈ p1 ∨ p ∈ p2) := by
    intro p hp
    obtain ⟨h1, h2⟩ := (q1 p).1 hp
    rw [hlab] at h2
    by_cases h3 : p.1 = edge
    · exact h2 (by simp [h3])
    · exact h2 (by simp [mem_labels (hother p h1 h3)])
  have e1 : p1 = [] := List.eq_nil_iff_forall_not_mem.2 (fun p hp => hempty p (.inl hp))
  have e2 : p2 = [] := List.eq_nil_iff_forall_not_mem.2 (fun p hp => hempty p (.inr hp))
  rw [e1, e2, hlab, List.append_nil, List.nil_append] at q3
  have hfind : (labels outer ++ [edge]).find? (fun d => Sizes.isEdges data x.dims d) = some edge := by
    rw [List.find?_append]
    have : (labels outer).find? (fun d => Sizes.isEdges data x.dims d) = none := by
      rw [List.find?_eq_none]
      intro d hd
      rw [mem_isEdges_false hw hxw (hmem (edge, n) (by simp)) hedge (fun hc => heo (hc ▸ hd))]
      decide
    rw [this]
    have h2 := isEdges_true hw hxw hei (hmem (edge, n) (by simp)) hedge (fun p hp hpe => hmem p (by simp [hother p hp hpe]))
    simp [h2]
  have hitem : flattenItem eq data (labels outer ++ [edge]) toDim x =
      flattenBinEdge eq { x with arr := ⟨outer ++ [(edge, n + 1)], x.arr.val⟩ } (labels outer ++ [edge]) toDim edge := by
    unfold flattenItem
    rw [q3]
    simp only [hfind]
  have hok : ({ x with arr := ⟨outer ++ [(edge, n + 1)], x.arr.val⟩ } : CVar V).arr.Ok := by
    refine ⟨hmw, hmi, fun c c' h => hx.own c c' (fun d hd => h d ?_)⟩
    rw [hlab]
    obtain ⟨r, hr, rfl⟩ := List.mem_map.1 hd
    by_cases h3 : r.1 = edge
    · simp [h3]
    · simp [mem_labels (hother r hr h3)]
  obtain ⟨r1, r2⟩ := flattenBinEdge_spec heq hok rfl hn hrows hto
  rw [hitem]
  refine ⟨r1, fun hj => ?_⟩
  obtain ⟨y, s1, s2, s3, s4, s5, s6⟩ := r2 hj
  exact ⟨y, s1, s2, s3, s4, s5, fun c h1 h2 h3 => s6 c (inDims_append h1 h2 (by omega))⟩

/-- **C49**: folding back restores the edges. Flattening a coord with bin edges (dims `outer, edge: n + 1`) and folding the result to the original
dims of the data gives the original coord. -/
theorem C49_fold_back {eq : V → V → Bool} (heq : ∀ a b, eq a b = true → a = b) {outer : Dims} {edge toDim : Dim} {n : Int} {x y : CVar V}
    (hx : x.arr.Ok) (hd : x.dims = outer ++ [(edge, n + 1)]) (hn : 0 ≤ n) (hrows : 1 ≤ Dims.volume outer) (hto : toDim ≠ Dim.invalid)
    (h : flattenItem eq (outer ++ [(edge, n)]) (labels outer ++ [edge]) toDim x = .ok (some y)) :
    ∃ z, foldItem [(toDim, Dims.volume outer * n)] toDim (outer ++ [(edge, n)]) y = .ok z ∧ z.dims = x.dims ∧ z.unit = x.unit ∧
      z.kind = x.kind ∧ ∀ c, InDims x.dims c → z.arr.val c = x.arr.val c := by
  have hxw : WF x.dims := hx.wf
  have hxv : Dim.invalid ∉ labels x.dims := hx.valid
  have hw : WF (outer ++ [(edge, n)]) := by
    refine ⟨?_, ?_⟩
    · have := hxw.1
      rw [hd, labels_append] at this
      rw [labels_append]; exact this
    · intro p hp
      rcases List.mem_append.1 hp with h1 | h1
      · exact hxw.2 p (by rw [hd]; simp [h1])
      · simp at h1; rw [h1]; exact hn
  have hi : Dim.invalid ∉ labels (outer ++ [(edge, n)]) := by
    rw [hd, labels_append] at hxv
    rw [labels_append]; exact hxv
  obtain ⟨g1, g2⟩ := C49_flatten_edges_partial (pre := []) (outer := outer) (post := []) (edge := edge) (n := n) heq (by simp) hw hx (by rw [hd]; simp)
    (by
      intro p hp hpe
      rw [hd] at hp
      rcases List.mem_append.1 hp with h1 | h1
      · exact h1
      · simp at h1; exact absurd (by rw [h1]) hpe) hrows hi hto
  by_cases hj : Joinable eq x outer edge n
  · obtain ⟨y', s1, s2, s3, s4, s5, s6⟩ := g2 hj
    rw [h] at s1
    have := Option.some.inj (Except.ok.inj s1)
    subst this
    obtain ⟨z, z1, z2, z3, z4, z5, z6⟩ := foldBinEdge_spec s3 s2 hw hi
    have hvol : 0 ≤ Dims.volume outer * n := Int.mul_nonneg (by omega) hn
    refine ⟨z, ?_, by rw [z2, hd], z4.trans s4, z5.trans s5, fun c hc => ?_⟩
    · unfold foldItem
      rw [if_pos, z1]
      exact isEdges_true (n := Dims.volume outer * n) ⟨by simp [labels], by simpa using hvol⟩ s3.wf hto (by simp) (by
        show _ ∈ y.dims
        rw [s2]; simp) (fun p hp hpe => by
        change p ∈ y.dims at hp
        rw [s2] at hp; simp at hp
        exact absurd (by rw [hp]) hpe)
    · rw [hd] at hc
      obtain ⟨h1, h2, h3⟩ := inDims_outer hc
      rw [z6]
      exact s6 c h1 h2 (by omega)
  · rw [g1 hj] at h
    have := Except.ok.inj h
    cases this

/-- **C49**: flattening after folding restores the edges. A one-dimensional coord with bin edges that is folded and flattened again is the same, provided
its elements are equal to themselves (no NaN, see `C49_drops_nan`). -/
theorem C49_flatten_folded {eq : V → V → Bool} (heq : ∀ a b, eq a b = true → a = b) {outer : Dims} {edge fromDim : Dim} {n : Int} {y : CVar V}
    (hy : y.arr.Ok) (hd : y.dims = [(fromDim, Dims.volume outer * n + 1)]) (hw : WF (outer ++ [(edge, n)]))
    (hi : Dim.invalid ∉ labels (outer ++ [(edge, n)])) (hrows : 1 ≤ Dims.volume outer) (hrefl : ∀ c, eq (y.arr.val c) (y.arr.val c) = true) :
    ∃ z w, foldItem [(fromDim, Dims.volume outer * n)] fromDim (outer ++ [(edge, n)]) y = .ok z ∧
      flattenItem eq (outer ++ [(edge, n)]) (labels outer ++ [edge]) fromDim z = .ok (some w) ∧ w.dims = y.dims ∧ w.unit = y.unit ∧
      w.kind = y.kind ∧ ∀ c, InDims y.dims c → w.arr.val c = y.arr.val c := by
  have hn : 0 ≤ n := hw.2 (edge, n) (by simp)
  have hvol : 0 ≤ Dims.volume outer * n := Int.mul_nonneg (by omega) hn
  have hfi : fromDim ≠ Dim.invalid := fun hc => hy.valid (by show Dim.invalid ∈ labels y.dims; rw [hd, hc]; simp [labels])
  have hval : ∀ c c' : Dim → Int, c fromDim = c' fromDim → y.arr.val c = y.arr.val c' := by
    intro c c' h
    refine hy.own _ _ (fun d hdl => ?_)
    change d ∈ labels y.dims at hdl
    rw [hd] at hdl; simp [labels] at hdl
    rw [hdl]; exact h
  obtain ⟨z, z1, z2, z3, z4, z5, z6⟩ := foldBinEdge_spec hy hd hw hi
  have hnd : (labels outer).Nodup ∧ edge ∉ labels outer := by
    have := hw.1
    rw [labels_append] at this
    exact ⟨(List.nodup_append.1 this).1, fun hc => (List.nodup_append.1 this).2.2 edge hc edge (by simp [labels]) rfl⟩
  have hwo : WF outer := ⟨hnd.1, fun p hp => hw.2 p (by simp [hp])⟩
  obtain ⟨_, g2⟩ := C49_flatten_edges_partial (pre := []) (outer := outer) (post := []) (edge := edge) (n := n) (toDim := fromDim) heq (by simp) hw z3 (by rw [z2]; simp)
    (by
      intro p hp hpe
      rw [z2] at hp
      rcases List.mem_append.1 hp with h1 | h1
      · exact h1
      · simp at h1; exact absurd (by rw [h1]) hpe) hrows hi hfi
  obtain ⟨w, w1, w2, w3, w4, w5, w6⟩ := g2 (by
    intro c c' hc hc' hp
    rw [z6, z6]
    rw [hval (upd (upd c' edge 0) fromDim (position outer (upd c' edge 0) * n + upd c' edge 0 edge))
      (upd (upd c edge n) fromDim (position outer (upd c edge n) * n + upd c edge n edge))]
    · exact hrefl _
    · rw [upd_same, upd_same, upd_same, upd_same, position_upd hnd.2, position_upd hnd.2, hp, Int.add_mul]
      omega)
  refine ⟨z, w, ?_, w1, by rw [w2, hd], w4.trans z4, w5.trans z5, fun c hc => ?_⟩
  · unfold foldItem
    rw [if_pos, z1]
    exact isEdges_true (n := Dims.volume outer * n) ⟨by simp [labels], by simpa using hvol⟩ hy.wf hfi (by simp) (by
      show _ ∈ y.dims
      rw [hd]; simp) (fun p hp hpe => by
      change p ∈ y.dims at hp
      rw [hd] at hp; simp at hp
      exact absurd (by rw [hp]) hpe)
  · rw [hd] at hc
    obtain ⟨k0, k1⟩ := hc fromDim (Dims.volume outer * n + 1) (by simp)
    -- the row and the edge of position `c fromDim`
    obtain ⟨p, j, p0, pN, j0, jn, hpj⟩ : ∃ p j : Int, 0 ≤ p ∧ p < Dims.volume outer ∧ 0 ≤ j ∧ j ≤ n ∧ p * n + j = c fromDim := by
      by_cases hlast : c fromDim = Dims.volume outer * n
      · refine ⟨Dims.volume outer - 1, n, by omega, by omega, hn, le_refl _, ?_⟩
        rw [hlast, Int.sub_mul]; omega
      · have hlt : c fromDim < Dims.volume outer * n := by omega
        have hn0 : 0 < n := (volume_pos_of_lt (by omega) hn k0 hlt).2
        refine ⟨c fromDim / n, c fromDim % n, Int.ediv_nonneg k0 hn, Int.ediv_lt_of_lt_mul hn0 hlt, Int.emod_nonneg _ (by omega),
          by have := Int.emod_lt_of_pos (c fromDim) hn0; omega, ?_⟩
        rw [Int.mul_comm]; exact Int.mul_ediv_add_emod _ _
    have hin : InDims outer (coordsOf outer p) := coordsOf_inDims hwo p0 pN
    have := w6 (upd (coordsOf outer p) edge j) (inDims_upd hnd.2 hin) (by rw [upd_same]; exact j0) (by rw [upd_same]; exact jn)
    rw [z6, position_upd hnd.2, position_coordsOf hwo p0 pN, upd_same, hpj] at this
    have hwval : ∀ c c' : Dim → Int, c fromDim = c' fromDim → w.arr.val c = w.arr.val c' := by
      intro c c' h
      refine w3.own _ _ (fun d hdl => ?_)
      change d ∈ labels w.dims at hdl
      rw [w2] at hdl; simp [labels] at hdl
      rw [hdl]; exact h
    rw [hwval c _ (upd_same _ _ (c fromDim)).symm, this]
    exact hval _ _ (upd_same _ _ _)

/-- **C49**, coords, masks and attrs without bin edges along the flattened dims: every element of the data keeps its element of the coord. The coord may
depend on further dims, also with bin edges, and it may depend on only some of the flattened dims. -/
theorem C49_flatten_plain {eq : V → V → Bool} {data pre mid post : Dims} {toDim : Dim} {x : CVar V} (hdata : data = pre ++ mid ++ post) (hw : WF data)
    (hvalid : Dim.invalid ∉ labels data) (hx : x.arr.Ok) (hex : ∃ d ∈ labels x.dims, d ∈ labels mid)
    (hplain : ∀ p ∈ x.dims, p.1 ∈ labels mid → p ∈ mid) (hto : ∀ d ∈ labels x.dims, d ∉ labels mid → d ≠ toDim) :
    ∃ y, flattenItem eq data (labels mid) toDim x = .ok (some y) ∧
      (∀ p, p ∈ y.dims ↔ p = (toDim, Dims.volume mid) ∨ (p ∈ x.dims ∧ p.1 ∉ labels mid)) ∧ y.unit = x.unit ∧ y.kind = x.kind ∧
      ∀ c, InDims mid c → y.arr.val (upd c toDim (position mid c)) = x.arr.val c := by
  have hxw : WF x.dims := hx.wf
  have hmem : ∀ p ∈ mid, p ∈ data := fun p hp => by rw [hdata]; simp [hp]
  have hnm : (labels mid).Nodup := by
    have := hw.1
    rw [hdata, labels_append, labels_append] at this
    exact (List.nodup_append.1 (List.nodup_append.1 this).1).2.1
  have hmw : WF mid := ⟨hnm, fun p hp => hw.2 p (hmem p hp)⟩
  have hmi : Dim.invalid ∉ labels mid := by
    intro hc
    obtain ⟨p, hp, hpe⟩ := List.mem_map.1 hc
    exact hvalid (hpe ▸ mem_labels (hmem p hp))
  have hne : mid ≠ [] := by
    rintro rfl
    obtain ⟨d, _, h⟩ := hex
    simp [labels] at h
  obtain ⟨p1, p2, q1, q2, q3⟩ := maybeBroadcast_eq (D := data) (mid := mid) hx hmw hmi (by
    intro p hp
    unfold broadcastExtent
    by_cases hc : p.1 ∈ labels x.dims
    · rw [if_pos (contains_iff.2 hc)]
      obtain ⟨r, hr, hrp⟩ := List.mem_map.1 hc
      have hrm := hplain r hr (hrp ▸ mem_labels hp)
      have h1 : at? mid r.1 = .ok r.2 := at?_of_mem hnm hrm
      rw [hrp, at?_of_mem hnm hp] at h1
      rw [← hrp, at?_of_mem hxw.1 hr, Except.ok.inj h1]
    · rw [if_neg (by rw [contains_false.2 hc]; decide)]
      exact at?_of_mem hw.1 (hmem p hp)) hex
  have hfind : (labels mid).find? (fun d => Sizes.isEdges data x.dims d) = none := by
    rw [List.find?_eq_none]
    intro d hd
    obtain ⟨p, hp, rfl⟩ := List.mem_map.1 hd
    rw [isEdges_false_of_mem (n := p.2) hw hxw (hmem p hp)]
    · decide
    · intro hm
      obtain ⟨r, hr, hrp⟩ := List.mem_map.1 hm
      have hrm := hplain r hr (hrp ▸ hd)
      have h1 : at? mid r.1 = .ok r.2 := at?_of_mem hnm hrm
      rw [hrp, at?_of_mem hnm hp] at h1
      have : r = (p.1, p.2) := Prod.ext hrp (Except.ok.inj h1).symm
      rw [← this]; exact hr
  have htn : toDim ∉ labels (p1 ++ p2) := by
    intro hc
    obtain ⟨p, hp, hpe⟩ := List.mem_map.1 hc
    obtain ⟨h1, h2⟩ := (q1 p).1 (List.mem_append.1 hp)
    exact hto p.1 (mem_labels h1) h2 hpe
  have hfl := flatten_mid (x := { x with arr := ⟨p1 ++ mid ++ p2, x.arr.val⟩ }) (toDim := toDim) rfl hne q2 htn
  have hitem : flattenItem eq data (labels mid) toDim x = .ok (some { x with arr := ⟨p1 ++ (toDim, Dims.volume mid) :: p2,
      fun c => x.arr.val (fun d => if d ∈ labels mid then coordsOf mid (c toDim) d else c d)⟩ }) := by
    unfold flattenItem
    rw [q3]
    simp only [hfind]
    rw [if_pos]
    · rw [hfl]
    · cases hmid : mid with
      | nil => exact absurd hmid hne
      | cons r mid' =>
        simp only [labels_cons, List.head?_cons]
        have : Sizes.contains (p1 ++ (r :: mid') ++ p2) r.1 = true := contains_iff.2 (by rw [labels_append, labels_append, labels_cons]; simp)
        change (_ || Sizes.contains (p1 ++ (r :: mid') ++ p2) r.1) = true
        rw [this, Bool.or_true]
  refine ⟨_, hitem, fun p => ?_, rfl, rfl, fun c hc => ?_⟩
  · show p ∈ p1 ++ (toDim, Dims.volume mid) :: p2 ↔ _
    rw [← q1 p, List.mem_append, List.mem_cons]
    constructor
    · rintro (h | h | h)
      · exact .inr (.inl h)
      · exact .inl h
      · exact .inr (.inr h)
    · rintro (h | h | h)
      · exact .inr (.inl h)
      · exact .inl h
      · exact .inr (.inr h)
  · refine hx.own _ _ (fun d hd => ?_)
    show (if d ∈ labels mid then coordsOf mid (upd c toDim (position mid c) toDim) d else upd c toDim (position mid c) d) = c d
    rw [upd_same]
    by_cases hdm : d ∈ labels mid
    · rw [if_pos hdm]; exact coordsOf_position hnm hc d hdm
    · rw [if_neg hdm, upd_ne (hto d hd hdm)]

/-! ### Examples and disagreements -/

/-- Row-major array of integers. -/
def feVar (dims : Dims) (l : List Int) : CVar Int := ⟨⟨dims, fun c => l.getD (position dims c).toNat 0⟩, 0, 0⟩

/-- The elements in row-major order. -/
def feElems (x : CVar Int) : Dims × List Int :=
  (x.dims, (List.range (Dims.volume x.dims).toNat).map (fun k => x.arr.val (coordsOf x.dims k)))

/-- Result of flattening, with the elements in row-major order. -/
def feResult (r : Except Err (Option (CVar Int))) : Option (Option (Dims × List Int)) :=
  match r with
  | .error _ => none
  | .ok none => some none
  | .ok (some y) => some (some (feElems y))

/-- `-99` plays the role of NaN. -/
def feEq : Int → Int → Bool := elemEq (fun v => v == -99)

theorem feVar_ok (dims : Dims) (l : List Int) (hw : WF dims) (hi : Dim.invalid ∉ labels dims) : (feVar dims l).arr.Ok :=
  ⟨hw, hi, fun c c' h => by show l.getD _ 0 = l.getD _ 0; rw [position_congr (s := dims) h]⟩

/-- Two rows (dim 5) of two bins (dim 6) with a common edge, flattened to dim 7: the coord is kept. -/
example : feResult (flattenItem feEq [(5, 2), (6, 2)] [5, 6] 7 (feVar [(5, 2), (6, 3)] [0, 1, 2, 2, 3, 4])) =
    some (some ([(7, 5)], [0, 1, 2, 3, 4])) := by rfl

/-- Without a common edge the coord is dropped. -/
example : feResult (flattenItem feEq [(5, 2), (6, 2)] [5, 6] 7 (feVar [(5, 2), (6, 3)] [0, 1, 2, 5, 6, 7])) = some none := by rfl

/-- The hypotheses of `C49_flatten_edges_partial`, `C49_fold_back` and `C49_flatten_folded` are satisfied by these. -/
example : ∃ y, flattenItem feEq [(5, 2), (6, 2)] [5, 6] 7 (feVar [(5, 2), (6, 3)] [0, 1, 2, 2, 3, 4]) = .ok (some y) ∧ y.dims = [(7, 5)] := by
  have h := (C49_flatten_edges_partial (eq := feEq) (data := [(5, 2), (6, 2)]) (pre := []) (outer := [(5, 2)]) (post := []) (edge := 6) (toDim := 7) (n := 2)
    (x := feVar [(5, 2), (6, 3)] [0, 1, 2, 2, 3, 4])
    (fun a b h => by simp [feEq, elemEq] at h; exact h.1) rfl ⟨by decide, by decide⟩ (feVar_ok _ _ ⟨by decide, by decide⟩ (by decide)) (by decide)
    (by decide) (by decide) (by decide) (by decide)).2 (by
      intro c c' hc hc' hp
      have h1 := hc 5 2 (by simp)
      have h2 := hc' 5 2 (by simp)
      have e1 : position [(5, 2)] c = c 5 := by simp
      have e2 : position [(5, 2)] c' = c' 5 := by simp
      rw [e1, e2] at hp
      have h3 : c 5 = 0 := by omega
      have h4 : c' 5 = 1 := by omega
      show feEq ([0, 1, 2, 2, 3, 4].getD (position [(5, 2), (6, 3)] (upd c' 6 0)).toNat 0)
        ([0, 1, 2, 2, 3, 4].getD (position [(5, 2), (6, 3)] (upd c 6 2)).toNat 0) = true
      have e3 : position [(5, 2), (6, 3)] (upd c' 6 0) = 3 := by simp [upd, h4]
      have e4 : position [(5, 2), (6, 3)] (upd c 6 2) = 2 := by simp [upd, h3]
      rw [e3, e4]; rfl)
  obtain ⟨y, h1, h2, _⟩ := h
  exact ⟨y, h1, h2⟩

/-- A coord of one of the flattened dims is broadcast. -/
example : feResult (flattenItem feEq [(5, 2), (6, 2)] [5, 6] 7 (feVar [(5, 2)] [10, 20])) = some (some ([(7, 4)], [10, 10, 20, 20])) := by rfl

/-- C49 does not hold if the edges are not along the innermost dim. The data has dims `x: 2, y: 2`, the coord has edges `0, 1, 2` for `y = 0` and `2, 3, 4`
for `y = 1`. The element `x = 0, y = 0` of the data has the edges `0, 1`, but after flattening the edges `0, 2`. -/
theorem C49_wrong_for_outer_edge :
    feResult (flattenItem feEq [(5, 2), (6, 2)] [5, 6] 7 (feVar [(5, 3), (6, 2)] [0, 2, 1, 3, 2, 4])) =
      some (some ([(7, 5)], [0, 2, 1, 3, 4])) := by rfl

/-- C49 does not hold if the coord has further dims. The data has dims `y: 2, x: 1`; the coord has edges `0, 1` for `y = 0` and `1, 2` for `y = 1`. Flattening
just `x` changes the edges for `y = 0` to `0, 2`. -/
theorem C49_wrong_for_other_dims :
    feResult (flattenItem feEq [(5, 2), (6, 1)] [6] 7 (feVar [(5, 2), (6, 2)] [0, 1, 1, 2])) = some (some ([(5, 2), (7, 2)], [0, 2, 1, 2])) := by rfl

/-- Joining is not required if only one dim is flattened, but the coord is dropped if the rows for the other dim do not fit. -/
theorem C49_drops_for_other_dims :
    feResult (flattenItem feEq [(5, 2), (6, 1)] [6] 7 (feVar [(5, 2), (6, 2)] [0, 1, 5, 6])) = some none := by rfl

/-- Flattening data without rows throws (`Slice` with begin 1 and end 0). -/
theorem C49_throws_for_empty :
    feResult (flattenItem feEq [(5, 0), (6, 2)] [5, 6] 7 (feVar [(5, 0), (6, 3)] [])) = none := by rfl

/-- A NaN at a joint is different from itself, so that the coord is dropped when flattening a folded array. -/
theorem C49_drops_nan :
    (match foldItem [(7, 2)] 7 [(5, 2), (6, 1)] (feVar [(7, 3)] [0, -99, 2]) with
      | .error _ => none
      | .ok z => some (feElems z, feResult (flattenItem feEq [(5, 2), (6, 1)] [5, 6] 7 z))) =
    some (([(5, 2), (6, 2)], [0, -99, -99, 2]), some none) := by rfl

private theorem feEq_eq : ∀ a b, feEq a b = true → a = b := fun a b h => by simp [feEq, elemEq] at h; exact h.1

-- such a `y` exists by the example above
example (y : CVar Int) (h : flattenItem feEq [(5, 2), (6, 2)] [5, 6] 7 (feVar [(5, 2), (6, 3)] [0, 1, 2, 2, 3, 4]) = .ok (some y)) :=
  C49_fold_back (outer := [(5, 2)]) (edge := 6) (n := 2) feEq_eq (feVar_ok _ _ ⟨by decide, by decide⟩ (by decide)) rfl (by decide) (by decide)
    (by decide) h
example := C49_flatten_folded (outer := [(5, 2)]) (edge := 6) (fromDim := 7) (n := 2) (y := feVar [(7, 5)] [0, 1, 2, 3, 4]) feEq_eq
  (feVar_ok _ _ ⟨by decide, by decide⟩ (by decide)) rfl ⟨by decide, by decide⟩ (by decide) (by decide) (fun c => by
    have h : ∀ i : Nat, feEq ([0, 1, 2, 3, 4].getD i 0) ([0, 1, 2, 3, 4].getD i 0) = true := by
      intro i
      match i with
      | 0 | 1 | 2 | 3 | 4 => decide
      | (k + 5) => simp [feEq, elemEq]
    exact h _)
example := C49_flatten_plain (eq := feEq) (data := [(4, 3), (5, 2), (6, 2)]) (pre := [(4, 3)]) (mid := [(5, 2), (6, 2)]) (post := [])
  (toDim := 7) (x := feVar [(4, 3), (5, 2)] [0, 1, 2, 3, 4, 5]) rfl ⟨by decide, by decide⟩ (by decide)
  (feVar_ok _ _ ⟨by decide, by decide⟩ (by decide)) ⟨5, by decide, by decide⟩ (by decide) (by decide)

end Scipp.Props
