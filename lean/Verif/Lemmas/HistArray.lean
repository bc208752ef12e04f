import Verif.Spec.HistArray
import Verif.Props.Histogram
import Verif.Lemmas.RebinVar
import Verif.Lemmas.EventMasks
/-
Lemmas about histogramming data with several dims.
-/
namespace Scipp.Props
open Scipp Sizes Spec Hist
variable {α : Type} [LinearOrder α] {W : Type} [AddCommMonoid W]

/-- Zero for masked elements, in whatever layout. -/
theorem dataMasked_ok {data : Var W} (hw : data.view.WF) (hi : Dim.invalid ∉ labels data.view.dims) {masks : List (Dim × MaskVar)} (hm : MasksOk masks data.view.dims) (dim : Dim) :
    ∃ x, dataMasked data masks dim = .ok x ∧ x.view.WF ∧ x.view.dims.Perm data.view.dims ∧
      (∀ c, InDims data.view.dims c → x.elem c = if maskedAlong masks dim c then 0 else data.elem c) ∧
      (x = data ∨ x.view = View.fresh x.view.dims) := by
  obtain ⟨u, hu, hu1, hu2⟩ := irreducible_loop hw.1 (dim := dim) masks none hm (by simp)
  have hval : ∀ c, maskedBy u c = maskedAlong masks dim c := by intro c; have := hu2 c; simpa [maskedBy] using this
  cases u with
  | none =>
    refine ⟨data, by simp only [dataMasked, irreducibleMask, hu, bind, Except.bind], hw, List.Perm.refl _, fun c _ => ?_, .inl rfl⟩
    rw [← hval c]
    simp [maskedBy]
  | some k =>
    obtain ⟨m1, m2, m3, m4⟩ := hu1 k rfl
    have hvo := ofVar_ok hw hi
    obtain ⟨x, hx⟩ := (zip_exists (f := fun (b : Bool) (e : W) => if b then 0 else e) m1 hvo).2 (by
      intro d a b ha hb
      exact compatible_of_subset hw.1 (fun q hq => hq) d a b (m3 _ ha) hb)
    obtain ⟨x1, x2, x3⟩ := zip_ok m1 hvo hx
    have hperm : x.dims.Perm data.view.dims := by
      refine (List.perm_ext_iff_of_nodup (List.Nodup.of_map _ x1.wf.1) (List.Nodup.of_map _ hw.1.1)).2 (fun p => ?_)
      rw [x2 p]
      exact ⟨fun h => h.elim (m3 p) id, .inr⟩
    refine ⟨Rebin.ofArr x, ?_, fresh_WF x1.wf, hperm, fun c hc => ?_, .inr rfl⟩
    · simp only [dataMasked, irreducibleMask, hu, bind, Except.bind, whereMask, m2.bool, m2.unit, Bool.not_true, Bool.false_eq_true, if_false, hx]
    · rw [ofArr_elem x1 (inDims_perm hperm.symm hc), x3]
      have := hval c
      simp only [maskedBy] at this
      simp only [this, Arr.ofVar]

theorem histogramRow_eq (lin : List α → Bool) (guess : List α → α → Int) (split : Bool) (edges : List α) (h : Ascending edges)
    (hlin : lin edges = true → edges ≠ [] ∧ GuessOk edges (guess edges)) (events : List (Option α)) (weights : List W) (hl : events.length = weights.length) :
    histogramRow lin guess split edges events weights = histogram lin guess edges (events.zip weights) := by
  cases split with
  | true =>
    simp only [histogramRow, if_true]
    rw [histogramParts_eq lin guess edges h hlin _ _ (by simp), histogram_eq lin guess edges h hlin]
    have := flatten_rows (events.zip weights)
    rw [List.length_zip, hl, Nat.min_self] at this
    rw [this]
  | false =>
    simp only [histogramRow, Bool.false_eq_true, if_false, histogramSpans, ← hl, List.drop_length, List.map_nil]
    rw [histogram_eq lin guess edges h hlin]
    simp [bind, Except.bind, histPure]

/-- A histogram of a list of events. -/
theorem pick_histogram (lin : List α → Bool) (guess : List α → α → Int) (edges : List α) (h : Ascending edges)
    (hlin : lin edges = true → edges ≠ [] ∧ GuessOk edges (guess edges)) (events : List (Option α × W)) (i : Int) (h0 : 0 ≤ i) (hi : i + 1 < edges.length) :
    pick (histogram lin guess edges events) i = weightWhere (InBin edges i.toNat) events := by
  obtain ⟨data, h1, h2, h3, _⟩ := C19_histogram_partial lin guess edges h hlin events
  rw [h1]
  simp only [pick, List.getD]
  rw [h3 i.toNat (by omega)]
  rfl

theorem forRows_ok {dims : Dims} (hw : Sizes.WF dims) {f : (Dim → Int) → Except Err (List W)} (h : ∀ c, InDims dims c → ∃ l, f c = .ok l) : forRows dims f = .ok () := by
  unfold forRows
  have key : ∀ l : List Nat, (∀ k ∈ l, ∃ r, f (coordsOf dims k) = .ok r) → (l.forM fun k => do let _ ← f (coordsOf dims k); (.ok () : Except Err Unit)) = .ok () := by
    intro l
    induction l with
    | nil => intro _; rfl
    | cons k l ih =>
      intro hl
      obtain ⟨r, hr⟩ := hl k (by simp)
      simp only [List.forM, hr, bind, Except.bind]
      exact ih (fun k hk => hl k (by simp [hk]))
  refine key _ (fun k hk => h _ ?_)
  simp only [List.mem_range] at hk
  exact coordsOf_inDims hw (by omega) (by omega)

/-- Elements of a row are at positions inside the dims. -/
theorem upd_in {dims : Dims} (hw : (labels dims).Nodup) {dim : Dim} {n : Int} (hd : (dim, n) ∈ dims) {c : Dim → Int} (hc : InDims (dims.filter (·.1 ≠ dim)) c)
    {i : Int} (h0 : 0 ≤ i) (h1 : i < n) : InDims dims (upd c dim i) := by
  intro d m hm
  by_cases e : d = dim
  · subst e
    have h1 := at?_of_mem hw hm
    rw [at?_of_mem hw hd] at h1
    have : n = m := by simpa using h1
    simp only [upd, if_true]; omega
  · simpa [upd, e] using hc d m (by simp [hm, e])

/-- The coord is along the dim of the events. -/
theorem dimOf_eq {data : Var W} {eventDim : Dim} {n : Int} {coord : Var (Option α)} {dim : Dim} (h : Countable data eventDim n coord dim) (o : Nat) (a b : Bool) :
    SizedDict.dimOf ⟨data.view.dims, [], false⟩ dim ⟨coord.view, o, a, b⟩ = eventDim := by
  have hne : coord.view.dims.length ≠ 0 := by
    intro e
    have := h.coord_along
    rw [List.length_eq_zero_iff.1 e] at this
    simp at this
  simp only [SizedDict.dimOf, Entry.dims, if_neg hne]
  split
  · rename_i h1
    rw [one_dim h1 h.coord_along]
    rfl
  · rename_i h1
    have hdim := h.coord_dim.resolve_left h1
    have hnone : (labels coord.view.dims).find? (fun x => isEdges data.view.dims coord.view.dims x) = none := by
      rw [List.find?_eq_none]
      intro x hx
      obtain ⟨k, hk⟩ := at?_ok_of_mem_labels hx
      have hk' := at?_ok_mem hk
      have h2 := h.coord_fits _ hk'
      have h3 := at?_of_mem h.wf.1.1 h2
      have h4 : Sizes.contains data.view.dims x = true := contains_iff.2 (mem_labels h2)
      simp only [isEdges, hk, h3, h4]
      split
      · simp
      · split
        · simp
        · simp
    rw [hnone]
    simp only [contains_iff.2 (mem_labels (hdim ▸ h.coord_along) : dim ∈ labels coord.view.dims), if_true, hdim]

theorem not_histogram {data : Var W} {eventDim : Dim} {n : Int} {coord : Var (Option α)} {dim : Dim} (h : Countable data eventDim n coord dim) :
    isHistogram data.view.dims coord.view.dims dim = false := by
  by_cases hd : dim ∈ labels data.view.dims
  · have := h.once hd
    subst this
    simp [isHistogram, at?_of_mem h.wf.1.1 h.along, at?_of_mem h.coord_wf.1.1 h.coord_along, Except.toOption]
  · simp [isHistogram, contains_false.2 hd]

/-- Merging dims that are contained in others. -/
theorem merge_sub {a b : Dims} (ha : Sizes.WF a) (hb : Sizes.WF b) (hi : Dim.invalid ∉ labels b) (h : ∀ p ∈ a, p ∈ b) :
    ∃ m, Dims.merge a b = .ok m ∧ m.Perm b ∧ Sizes.WF m := by
  have hia : Dim.invalid ∉ labels a := fun hc => by
    obtain ⟨k, hk⟩ := at?_ok_of_mem_labels hc
    exact hi (mem_labels (h _ (at?_ok_mem hk)))
  obtain ⟨m, hm⟩ := (C02_merge_succeeds_iff _ _ ha hb hia hi).2 (by
    intro d x y hx hy
    have h1 := at?_of_mem hb.1 (h _ hx)
    rw [at?_of_mem hb.1 hy] at h1
    simpa using h1.symm)
  have hw := Dims.merge_WF hm
  refine ⟨m, hm, ?_, hw⟩
  refine (List.perm_ext_iff_of_nodup (List.Nodup.of_map _ hw.1) (List.Nodup.of_map _ hb.1)).2 (fun p => ?_)
  rw [C02_merge_content _ _ m ha hb hia hi hm p.1 p.2]
  exact ⟨fun h' => h'.elim (h p) id, .inr⟩

theorem EdgesOk.notInvalid {lin : List α → Bool} {guess : List α → α → Int} {edges : Var α} {dim : Dim} {m : Int} {dims : Dims} (h : EdgesOk lin guess edges dim m dims)
    (hi : Dim.invalid ∉ labels dims) : Dim.invalid ∉ labels edges.view.dims := by
  intro hc
  obtain ⟨j, hj⟩ := at?_ok_of_mem_labels hc
  by_cases hdim : Dim.invalid = dim
  · exact h.valid hdim.symm
  · exact hi (mem_labels (h.others _ (at?_ok_mem hj) hdim))

/-- Edges in another layout. -/
theorem EdgesOk.same {lin : List α → Bool} {guess : List α → α → Int} {edges e : Var α} {dim : Dim} {m : Int} {dims : Dims} (h : EdgesOk lin guess edges dim m dims)
    (hp : e.view.dims.Perm edges.view.dims) (he : ∀ c, InDims edges.view.dims c → e.elem c = edges.elem c) {c : Dim → Int} (hc : InDims (edges.view.dims.filter (·.1 ≠ dim)) c) :
    row e dim (m + 1) c = row edges dim (m + 1) c := row_congr h.wf.1.1 h.along he hc

theorem EdgesOk.lin {lin : List α → Bool} {guess : List α → α → Int} {edges : Var α} {dim : Dim} {m : Int} {dims : Dims} (h : EdgesOk lin guess edges dim m dims) {c : Dim → Int}
    (hc : InDims (edges.view.dims.filter (·.1 ≠ dim)) c) :
    lin (row edges dim (m + 1) c) = true → row edges dim (m + 1) c ≠ [] ∧ GuessOk (row edges dim (m + 1) c) (guess (row edges dim (m + 1) c)) := by
  intro hl
  refine ⟨fun e => ?_, h.guess c hc hl⟩
  have h1 := row_length edges dim (m + 1) c
  have h2 := h.nonneg
  rw [e, List.length_nil] at h1
  omega

/-- Histogramming contiguous data, coord and edges. -/
theorem dense_ok {lin : List α → Bool} {guess : List α → α → Int} {split : Bool} {dim eventDim : Dim} {n m : Int} {coord : Coord (Option α)} {data : Var W} {u : Nat} {edges : Coord α}
    (h : Countable data eventDim n coord.x dim) (hda : Adjacent data.view eventDim) (hca : Adjacent coord.x.view eventDim)
    (hew : edges.x.view.WF) (hed : (dim, m + 1) ∈ edges.x.view.dims) (hea : Adjacent edges.x.view dim) (hm : 0 ≤ m) (hdi : dim ≠ Dim.invalid)
    (heo : ∀ p ∈ edges.x.view.dims, p.1 ≠ dim → p ∈ data.view.dims.filter (·.1 ≠ eventDim))
    (hes : ∀ c, InDims (edges.x.view.dims.filter (·.1 ≠ dim)) c → Ascending (row edges.x dim (m + 1) c))
    (hel : ∀ c, InDims (edges.x.view.dims.filter (·.1 ≠ dim)) c → lin (row edges.x dim (m + 1) c) = true →
      row edges.x dim (m + 1) c ≠ [] ∧ GuessOk (row edges.x dim (m + 1) c) (guess (row edges.x dim (m + 1) c)))
    (hu : coord.unit = edges.unit) :
    ∃ r, histogramDense lin guess split dim eventDim coord data u edges = .ok r ∧ r.dims.Perm (data.view.dims.filter (·.1 ≠ eventDim) ++ [(dim, m)]) ∧ r.unit = u ∧
      ∀ c, InDims r.dims c → r.elem c = weightWhere (InBin (row edges.x dim (m + 1) c) (c dim).toNat) ((row coord.x eventDim n c).zip (row data eventDim n c)) := by
  obtain ⟨sd, sd1, sd2⟩ := (C62_subspan_view data.view h.wf eventDim n h.along).1 hda
  obtain ⟨sc, sc1, sc2⟩ := (C62_subspan_view coord.x.view h.coord_wf eventDim n h.coord_along).1 hca
  obtain ⟨se, se1, se2⟩ := (C62_subspan_view edges.x.view hew dim (m + 1) hed).1 hea
  have hfw : ∀ {s : Dims} (d : Dim), Sizes.WF s → Sizes.WF (s.filter (fun p => decide (p.1 ≠ d))) := fun d h => sublist_WF List.filter_sublist h
  have hdw := hfw eventDim h.wf.1
  have hcw := hfw eventDim h.coord_wf.1
  have hew' := hfw dim hew.1
  have hdi' : Dim.invalid ∉ labels (data.view.dims.filter (fun p => decide (p.1 ≠ eventDim))) := fun hc => h.valid (labels_mono (fun p hp => List.mem_of_mem_filter hp) _ hc)
  obtain ⟨m1, hm1, hperm, hm1w⟩ := merge_sub hcw hdw hdi' (fun p hp => by
    simp only [List.mem_filter] at hp ⊢
    exact ⟨h.coord_fits p hp.1, hp.2⟩)
  have hdd : dim ∉ labels (data.view.dims.filter (fun p => decide (p.1 ≠ eventDim))) := fun hc => by
    have h1 := h.once (labels_mono (fun p hp => List.mem_of_mem_filter hp) _ hc)
    obtain ⟨k, hk⟩ := at?_ok_of_mem_labels hc
    have := at?_ok_mem hk
    simp only [List.mem_filter, decide_eq_true_eq] at this
    exact this.2 h1
  have hcd : dim ∉ labels (coord.x.view.dims.filter (fun p => decide (p.1 ≠ eventDim))) := fun hc => hdd (labels_mono (fun p hp => by
    simp only [List.mem_filter] at hp ⊢
    exact ⟨h.coord_fits p hp.1, hp.2⟩) _ hc)
  have hm1i : Dim.invalid ∉ labels m1 := fun hc => hdi' ((hperm.map _).mem_iff.1 hc)
  have hm2 : Dims.merge m1 (edges.x.view.dims.filter (fun p => decide (p.1 ≠ dim))) = .ok m1 :=
    merge_of_includes hm1w hew' hm1i (fun p hp => by
      simp only [List.mem_filter, decide_eq_true_eq] at hp
      exact hperm.mem_iff.2 (heo p hp.1 hp.2))
  have hadd : Dims.addInner m1 dim (m + 1 - 1) = .ok (m1 ++ [(dim, m)]) := by
    rw [show m + 1 - 1 = m by ring]
    exact Dims.addInner_eq (fun hc => hdd ((hperm.map _).mem_iff.1 hc)) hm hdi
  have hin : ∀ c, InDims m1 c → InDims (data.view.dims.filter (·.1 ≠ eventDim)) c := fun c hc => inDims_perm hperm hc
  have hinc : ∀ c, InDims m1 c → InDims (coord.x.view.dims.filter (·.1 ≠ eventDim)) c := fun c hc => others_in (fun p hp _ => h.coord_fits p hp) (hin c hc)
  have hine : ∀ c, InDims m1 c → InDims (edges.x.view.dims.filter (·.1 ≠ dim)) c := by
    intro c hc d k hk
    simp only [List.mem_filter, decide_eq_true_eq] at hk
    exact hin c hc d k (heo _ hk.1 hk.2)
  have hrow : ∀ c, InDims m1 c → histogramRow lin guess split (readSpan edges.x.buf (se c)) (readSpan coord.x.buf (sc c)) (readSpan data.buf (sd c)) =
      histogram lin guess (row edges.x dim (m + 1) c) ((row coord.x eventDim n c).zip (row data eventDim n c)) := by
    intro c hc
    rw [se2 _ edges.x.buf c (hine c hc), sc2 _ coord.x.buf c (hinc c hc), sd2 _ data.buf c (hin c hc)]
    exact histogramRow_eq lin guess split _ (hes c (hine c hc)) (hel c (hine c hc)) _ _ (by rw [row_length, row_length])
  have hrows : forRows m1 (fun c => histogramRow lin guess split (readSpan edges.x.buf (se c)) (readSpan coord.x.buf (sc c)) (readSpan data.buf (sd c))) = .ok () := by
    apply forRows_ok hm1w
    intro c hc
    rw [hrow c hc, histogram_eq lin guess _ (hes c (hine c hc)) (hel c (hine c hc))]
    exact ⟨_, rfl⟩
  have heq : histogramDense lin guess split dim eventDim coord data u edges = .ok (
      { dims := m1 ++ [(dim, m)]
        elem := fun c => pick (histogramRow lin guess split (readSpan edges.x.buf (se c)) (readSpan coord.x.buf (sc c)) (readSpan data.buf (sd c))) (c dim)
        unit := u } : Out W) := by
    simp only [histogramDense, withoutDim, at?_of_mem hew.1.1 hed, erase_eq_filter hew.1.1 (mem_labels hed), sc1, sd1, se1, contains_false.2 hdd, contains_false.2 hcd, bind, Except.bind,
      Bool.false_eq_true, if_false, hm1, hm2, hadd, hu, Bool.or_self, ne_eq, not_true_eq_false, hrows]
  refine ⟨_, heq, hperm.append_right _, rfl, fun c hc => ?_⟩
  have hc1 : InDims m1 c := fun d k hk => hc d k (by simp [hk])
  have hc2 := hc dim m (by simp)
  simp only
  rw [hrow c hc1]
  apply pick_histogram lin guess _ (hes c (hine c hc1)) (hel c (hine c hc1)) _ _ hc2.1
  rw [row_length]
  omega

/-- Masked bins are empty. -/
theorem hideMasked_ok {ix : Arr (Int × Int)} (hix : ix.Ok) {masks : List (Dim × MaskVar)} (hm : MasksOk masks ix.dims) (dim : Dim) :
    ∃ r, hideMasked ix masks dim = .ok r ∧ r.dims = ix.dims ∧ r.Ok ∧ ∀ c, r.val c = if maskedAlong masks dim c then (0, 0) else ix.val c := by
  obtain ⟨u, hu, hu1, hu2⟩ := irreducible_loop hix.wf (dim := dim) masks none hm (by simp)
  have hval : ∀ c, maskedBy u c = maskedAlong masks dim c := by intro c; have := hu2 c; simpa [maskedBy] using this
  cases u with
  | none =>
    refine ⟨ix, by simp only [hideMasked, irreducibleMask, hu, bind, Except.bind], rfl, hix, fun c => ?_⟩
    rw [← hval c]
    simp [maskedBy]
  | some mk =>
    obtain ⟨m1, m2, m3, m4⟩ := hu1 mk rfl
    have hne : mk.arr.dims ≠ [] := by intro hc; rw [hc] at m4; simp at m4
    refine ⟨⟨ix.dims, fun c => if mk.arr.val c then (0, 0) else ix.val c⟩, ?_, rfl, ⟨hix.wf, hix.valid, fun c c' h => ?_⟩, fun c => ?_⟩
    · simp only [hideMasked, irreducibleMask, hu, bind, Except.bind, intersection_of_includes hix.wf m1.wf hix.valid m3, Arr.transpose,
        transpose_common m1.wf m1.valid hix.wf m3 hne, whereMask, m2.bool, m2.unit, Bool.not_true, Bool.false_eq_true, if_false, Arr.zip,
        EventMasks.merge_filter hix.wf hix.valid (fun p => Sizes.contains mk.arr.dims p.1) (fun p _ p' _ h => by simp only [h])]
    · simp only
      rw [hix.own c c' h, m1.own c c' (fun d hd => h d (labels_mono m3 _ hd))]
    · have := hval c
      simp only [maskedBy] at this
      simp only [this]

/-- Spans of a contiguous buffer. -/
theorem bufferSpan_ok {β : Type} {x : Var β} {dim : Dim} {n : Int} (hw : x.view.WF) (hd : x.view.dims = [(dim, n)]) (ha : ∀ i, x.view.addr (fun _ => i) = x.view.addr (fun _ => 0) + i) :
    ∃ f, bufferSpan x.view dim = .ok f ∧ ∀ p, readSpan x.buf (f p) = (intRange p.1 p.2).map fun i => x.elem fun _ => i := by
  have hadj : Adjacent x.view dim := by
    intro c i
    have key : ∀ j, x.view.addr (upd c dim j) = x.view.addr (fun _ => j) := by
      intro j
      simp only [View.addr]
      congr 1
      apply addrAux_congr
      intro d hd'
      rw [hd] at hd'
      simp only [labels_cons, labels_nil, List.mem_singleton] at hd'
      simp [upd, hd']
    rw [key, key, ha (i + 1), ha i]
    ring
  have hmem : (dim, n) ∈ x.view.dims := by rw [hd]; simp
  have h1 := (adjacent_iff hw hmem).1 hadj
  have hs := View.stride_eq hw.2.1 (mem_labels hmem)
  refine ⟨fun p => (x.view.offset + 1 * p.1, x.view.offset + 1 * p.2), ?_, fun p => ?_⟩
  · simp only [bufferSpan, hs, h1, bind, Except.bind, ne_eq, not_true_eq_false, if_false]
  · simp only [readSpan, intRange, List.map_map]
    have : x.view.offset + 1 * p.2 - (x.view.offset + 1 * p.1) = p.2 - p.1 := by ring
    rw [this]
    apply List.map_congr_left
    intro i _
    simp only [Function.comp, Var.elem]
    congr 1
    rw [ha]
    have h0 : x.view.addr (fun _ => 0) = x.view.offset := by
      have hz := addr_row (pre := []) (post := []) hw hd (fun _ => 0) 0
      rw [h1] at hz
      have hu : upd (fun _ => (0 : Int)) dim 0 = fun _ => 0 := by funext d; simp [upd]
      rw [hu] at hz
      rw [hz]
      simp [addrAux]
    rw [h0]
    ring

theorem fresh_adjacent {dim : Dim} {n : Int} {x : View} (h : x = View.fresh x.dims) (hd : x.dims = [(dim, n)]) (i : Int) : x.addr (fun _ => i) = x.addr (fun _ => 0) + i := by
  rw [h, hd, fresh_addr, fresh_addr]
  simp [flatIndex]

theorem zip_fst_snd {A B : Type} (l : List (A × B)) : (l.map Prod.fst).zip (l.map Prod.snd) = l := by
  induction l with
  | nil => rfl
  | cons p l ih => simp [ih]

/-- `buckets::histogram` for contiguous edges and bins with indices `ix`. -/
theorem buckets_ok {lin : List α → Bool} {guess : List α → α → Int} {b : Binned α W} {edges : Coord α} {dim : Dim} {N m : Int} (hb : BinnedOk b N)
    (hinner : Dims.inner edges.x.view.dims = dim)
    (hew : edges.x.view.WF) (hed : (dim, m + 1) ∈ edges.x.view.dims) (hea : Adjacent edges.x.view dim) (hm : 0 ≤ m) (hdi : dim ≠ Dim.invalid)
    (heo : ∀ p ∈ edges.x.view.dims, p.1 ≠ dim → p ∈ b.indices.dims.filter (·.1 ≠ dim))
    (hes : ∀ c, InDims (edges.x.view.dims.filter (·.1 ≠ dim)) c → Ascending (row edges.x dim (m + 1) c))
    (hel : ∀ c, InDims (edges.x.view.dims.filter (·.1 ≠ dim)) c → lin (row edges.x dim (m + 1) c) = true →
      row edges.x dim (m + 1) c ≠ [] ∧ GuessOk (row edges.x dim (m + 1) c) (guess (row edges.x dim (m + 1) c)))
    (hu : b.coord.unit = edges.unit) :
    ∃ r, histogramBuckets lin guess b edges = .ok r ∧ r.dims = b.indices.dims.filter (·.1 ≠ dim) ++ [(dim, m)] ∧ r.unit = b.unit ∧
      ∀ c, InDims r.dims c → r.elem c = weightWhere (InBin (row edges.x dim (m + 1) c) (c dim).toNat) (eventsAt b [] dim c) := by
  have hbi : Dim.invalid ∉ labels b.data.view.dims := by rw [hb.data.2]; simpa using fun e => hb.valid e.symm
  obtain ⟨x, x1, x2, x3, x4, x5⟩ := dataMasked_ok hb.data.1 hbi (hb.data.2 ▸ hb.masks) b.dim
  have hxd : x.view.dims = [(b.dim, N)] := List.perm_singleton.1 (hb.data.2 ▸ x3)
  obtain ⟨sd, sd1, sd2⟩ := bufferSpan_ok x2 hxd (by
    rcases x5 with rfl | h
    · exact hb.data_adjacent
    · exact fresh_adjacent h hxd)
  obtain ⟨sc, sc1, sc2⟩ := bufferSpan_ok hb.coord.1 hb.coord.2 hb.coord_adjacent
  obtain ⟨se, se1, se2⟩ := (C62_subspan_view edges.x.view hew dim (m + 1) hed).1 hea
  have hdw : Sizes.WF (b.indices.dims.filter (fun p => decide (p.1 ≠ dim))) := sublist_WF List.filter_sublist hb.indices.wf
  have hew' : Sizes.WF (edges.x.view.dims.filter (fun p => decide (p.1 ≠ dim))) := sublist_WF List.filter_sublist hew.1
  have hfi : Dim.invalid ∉ labels (b.indices.dims.filter (fun p => decide (p.1 ≠ dim))) := fun hc => hb.indices.valid (labels_mono (fun p hp => List.mem_of_mem_filter hp) _ hc)
  have hfd : dim ∉ labels (b.indices.dims.filter (fun p => decide (p.1 ≠ dim))) := fun hc => by
    obtain ⟨k, hk⟩ := at?_ok_of_mem_labels hc
    simpa using at?_ok_mem hk
  have hdims : withoutDim b.indices.dims dim = .ok (b.indices.dims.filter (fun p => decide (p.1 ≠ dim))) := by
    unfold withoutDim
    by_cases h : dim ∈ labels b.indices.dims
    · rw [if_pos (contains_iff.2 h), erase_eq_filter hb.indices.wf.1 h]
    · rw [if_neg (by simp [contains_false.2 h])]
      congr 1
      symm
      apply List.filter_eq_self.2
      intro p hp
      simpa using fun e : p.1 = dim => h (e ▸ mem_labels (x := p.2) hp)
  have hmerge : Dims.merge (b.indices.dims.filter (fun p => decide (p.1 ≠ dim))) (edges.x.view.dims.filter (fun p => decide (p.1 ≠ dim))) =
      .ok (b.indices.dims.filter (fun p => decide (p.1 ≠ dim))) := merge_of_includes hdw hew' hfi (fun p hp => by
    simp only [List.mem_filter, decide_eq_true_eq] at hp
    exact heo p hp.1 hp.2)
  have hadd : Dims.addInner (b.indices.dims.filter (fun p => decide (p.1 ≠ dim))) dim (m + 1 - 1) = .ok (b.indices.dims.filter (fun p => decide (p.1 ≠ dim)) ++ [(dim, m)]) := by
    rw [show m + 1 - 1 = m by ring]
    exact Dims.addInner_eq hfd hm hdi
  have hine : ∀ c, InDims (b.indices.dims.filter (fun p => decide (p.1 ≠ dim))) c → InDims (edges.x.view.dims.filter (·.1 ≠ dim)) c := by
    intro c hc d k hk
    simp only [List.mem_filter, decide_eq_true_eq] at hk
    exact hc d k (heo _ hk.1 hk.2)
  have hevents : ∀ c, InDims b.indices.dims c →
      (readSpan b.coord.x.buf (sc (b.indices.val c))).zip (readSpan x.buf (sd (b.indices.val c))) = eventsIn b c := by
    intro c hc
    obtain ⟨h0, h1, h2⟩ := hb.inside c hc
    rw [sc2, sd2, eventsIn, List.zip_map']
    apply List.map_congr_left
    intro i hi
    simp only [intRange, List.mem_map, List.mem_range] at hi
    obtain ⟨j, hj, rfl⟩ := hi
    rw [x4 _ (by
      rw [hb.data.2]
      intro d k hk
      simp only [List.mem_singleton, Prod.mk.injEq] at hk
      constructor <;> simp only <;> omega)]
  have hsize : ∃ size, (at? b.indices.dims dim).toOption.getD 0 = size ∧
      ∀ c, InDims (b.indices.dims.filter (fun p => decide (p.1 ≠ dim))) c → eventsAt b [] dim c = (if Sizes.contains b.indices.dims dim = true then
        ((intRange 0 size).map fun j => (readSpan b.coord.x.buf (sc (b.indices.val (upd c dim j)))).zip (readSpan x.buf (sd (b.indices.val (upd c dim j))))).flatten
        else (readSpan b.coord.x.buf (sc (b.indices.val c))).zip (readSpan x.buf (sd (b.indices.val c)))) := by
    by_cases h : dim ∈ labels b.indices.dims
    · obtain ⟨k, hk⟩ := at?_ok_of_mem_labels h
      refine ⟨k, by simp [hk, Except.toOption], fun c hc => ?_⟩
      rw [if_pos (contains_iff.2 h), eventsAt, hk]
      simp only [List.flatMap_def]
      congr 1
      apply List.map_congr_left
      intro j hj
      simp only [intRange, List.mem_map, List.mem_range] at hj
      obtain ⟨i, hi, rfl⟩ := hj
      rw [hevents _ (upd_in hb.indices.wf.1 (at?_ok_mem hk) hc (by omega) (by omega))]
      simp [maskedAlong]
    · refine ⟨_, rfl, fun c hc => ?_⟩
      rw [if_neg (by simp [contains_false.2 h]), hevents c (by
        intro d k hk
        exact hc d k (by simpa [hk] using fun e : d = dim => h (e ▸ mem_labels hk)))]
      obtain ⟨e, he⟩ : ∃ e, at? b.indices.dims dim = .error e := by
        cases h1 : at? b.indices.dims dim with
        | error e => exact ⟨e, rfl⟩
        | ok k => exact absurd (mem_labels (at?_ok_mem h1)) h
      simp only [eventsAt, he]
  obtain ⟨size, hsize, hat⟩ := hsize
  obtain ⟨F, hF⟩ : ∃ F : (Dim → Int) → Except Err (List W), F = fun c =>
      (if Sizes.contains b.indices.dims dim = true then
        if Dims.volume b.indices.dims * (m + 1 - 1) > 100000000 then
          histogramRow lin guess ((b.indices.dims.filter (fun p => decide (p.1 ≠ dim))).isEmpty && decide (((intRange 0 size).map fun j =>
            (readSpan b.coord.x.buf (sc (b.indices.val (upd c dim j)))).zip (readSpan x.buf (sd (b.indices.val (upd c dim j))))).flatten.length > 100000))
            (readSpan edges.x.buf (se c))
            (((intRange 0 size).map fun j => (readSpan b.coord.x.buf (sc (b.indices.val (upd c dim j)))).zip (readSpan x.buf (sd (b.indices.val (upd c dim j))))).flatten.map Prod.fst)
            (((intRange 0 size).map fun j => (readSpan b.coord.x.buf (sc (b.indices.val (upd c dim j)))).zip (readSpan x.buf (sd (b.indices.val (upd c dim j))))).flatten.map Prod.snd)
        else histogramParts lin guess (readSpan edges.x.buf (se c))
          ((intRange 0 size).map fun j => (readSpan b.coord.x.buf (sc (b.indices.val (upd c dim j)))).zip (readSpan x.buf (sd (b.indices.val (upd c dim j)))))
          (List.replicate ((readSpan edges.x.buf (se c)).length - 1) 0)
      else histogram lin guess (readSpan edges.x.buf (se c)) ((readSpan b.coord.x.buf (sc (b.indices.val c))).zip (readSpan x.buf (sd (b.indices.val c))))) := ⟨_, rfl⟩
  have hf : ∀ c, InDims (b.indices.dims.filter (fun p => decide (p.1 ≠ dim))) c → F c =
      histogram lin guess (row edges.x dim (m + 1) c) (eventsAt b [] dim c) := by
    intro c hc
    have h1 := hes c (hine c hc)
    have h2 := hel c (hine c hc)
    rw [hF]
    simp only
    rw [se2 _ edges.x.buf c (hine c hc), hat c hc]
    split
    · split
      · rw [histogramRow_eq lin guess _ _ h1 h2 _ _ (by rw [List.length_map, List.length_map]), zip_fst_snd]
      · rw [histogramParts_eq lin guess _ h1 h2 _ _ (by simp), histogram_eq lin guess _ h1 h2]
    · rfl
  have hok : ∀ c, InDims (b.indices.dims.filter (fun p => decide (p.1 ≠ dim))) c → ∃ l, F c = .ok l := fun c hc =>
    ⟨_, (hf c hc).trans (histogram_eq lin guess _ (hes c (hine c hc)) (hel c (hine c hc)) _)⟩
  have hrows := forRows_ok hdw hok
  have heq : histogramBuckets lin guess b edges = .ok (
      { dims := b.indices.dims.filter (fun p => decide (p.1 ≠ dim)) ++ [(dim, m)], elem := fun c => pick (F c) (c dim), unit := b.unit } : Out W) := by
    rw [hF] at hrows ⊢
    have hmerge' := hmerge
    have hadd' := hadd
    simp only [ne_eq] at hmerge' hadd'
    simp only [histogramBuckets, hinner, at?_of_mem hew.1.1 hed, x1, sc1, sd1, erase_eq_filter hew.1.1 (mem_labels hed), hu, se1, bind, Except.bind,
      ne_eq, not_true_eq_false, if_false] at hdims hrows ⊢
    rw [hdims]
    simp only [hsize]
    simp only [hmerge', hadd']
    rw [hrows]
  refine ⟨_, heq, rfl, rfl, fun c hc => ?_⟩
  have hc1 : InDims (b.indices.dims.filter (fun p => decide (p.1 ≠ dim))) c := fun d k hk => hc d k (by simp only [List.mem_append]; exact .inl hk)
  have hc2 := hc dim m (by simp)
  simp only
  rw [hf c hc1]
  apply pick_histogram lin guess _ (hes c (hine c hc1)) (hel c (hine c hc1)) _ _ hc2.1
  rw [row_length]
  omega

/-- A contiguous copy has `dim` as the inner dim. -/
theorem contiguous_inner {β : Type} {x y : Var β} {dim : Dim} {n : Int} (hw : x.view.WF) (hi : Dim.invalid ∉ labels x.view.dims) (hd : (dim, n) ∈ x.view.dims)
    (hin : Dims.inner x.view.dims = dim) (h : asContiguous x dim = .ok y) : Dims.inner y.view.dims = dim := by
  simp only [asContiguous, View.stride_eq hw.2.1 (mem_labels hd), bind, Except.bind] at h
  split at h
  · cases h
    exact hin
  · have hnot : dim ∉ labels (x.view.dims.filter (fun p => decide (p.1 ≠ dim))) := fun hc => by
      obtain ⟨k, hk⟩ := at?_ok_of_mem_labels hc
      simpa using at?_ok_mem hk
    rw [erase_eq_filter hw.1.1 (mem_labels hd), at?_of_mem hw.1.1 hd] at h
    simp only [Dims.addInner_eq hnot (hw.1.2 _ hd) (fun e => hi (e ▸ mem_labels hd))] at h
    split at h
    · cases h
    · rename_i v' hv'
      cases h
      obtain ⟨t1, _⟩ := View.transpose_ok hw hv'
      have heff : effOrder x.view.dims (labels (x.view.dims.filter (fun p => decide (p.1 ≠ dim)) ++ [(dim, n)])) = labels (x.view.dims.filter (fun p => decide (p.1 ≠ dim)) ++ [(dim, n)]) := by
        simp [effOrder]
      rw [heff] at t1
      show (v'.dims.getLast?.map Prod.fst).getD Dim.invalid = dim
      have : v'.dims.getLast?.map Prod.fst = (labels v'.dims).getLast? := by simp [labels, List.getLast?_map]
      rw [this, t1]
      simp

end Scipp.Props
