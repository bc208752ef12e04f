import Verif.Spec.EventMasks
import Verif.Props.Masks
import Verif.Lemmas.Bins2
import Verif.Lemmas.GroupBy
/-!
Lemmas about reductions of binned data with masks.
-/
namespace Scipp.EventMasks
open Scipp Scipp.Sizes Scipp.Props
open Scipp.Bins (valuesOf ofValues contiguousLoop valuesOf_length valuesOf_get ofValues_ok ofValues_val mem_valuesOf)
variable {V W : Type}

/-- Merging some of the dims (in order) with all of them. -/
theorem merge_filter {D : Dims} (hD : WF D) (hDi : Dim.invalid ∉ labels D) (q : Dim × Int → Bool)
    (hq : ∀ p ∈ D, ∀ p' ∈ D, p.1 = p'.1 → q p = q p') : Dims.merge (D.filter q) D = .ok D := by
  set f := D.filter q with hf
  have hfw : WF f := sublist_WF List.filter_sublist hD
  have hfi : Dim.invalid ∉ labels f := fun hc => hDi (labels_mono (fun p hp => List.mem_of_mem_filter hp) _ hc)
  obtain ⟨mm, hm⟩ := (C02_merge_succeeds_iff f D hfw hD hfi hDi).2 (by
    intro d x y hx hy
    exact compatible_of_subset hD (fun q hq => hq) d x y (List.mem_of_mem_filter hx) hy)
  rw [hm]
  have ho := (C02_merge_order f D mm hfw hD hfi hDi hm).2 (by
    have e1 : (labels f).filter (· ∈ labels D) = labels f :=
      List.filter_eq_self.2 (fun d hd' => by simpa using labels_mono (fun p hp => List.mem_of_mem_filter hp) d hd')
    rw [e1, hf]
    simp only [labels, List.filter_map]
    refine congrArg _ (List.filter_congr (fun p hp => ?_))
    simp only [Function.comp]
    refine Bool.eq_iff_iff.2 ⟨fun h => decide_eq_true (List.mem_map.2 ⟨p, List.mem_filter.2 ⟨hp, h⟩, rfl⟩), fun h => ?_⟩
    obtain ⟨p', hp', he⟩ := List.mem_map.1 (of_decide_eq_true h)
    rw [hq p hp p' (List.mem_of_mem_filter hp') he.symm]; exact (List.mem_filter.1 hp').2)
  have hmw := merge_valid hfw hD hfi hDi hm
  refine congrArg _ (mem_iff_eq_of_sublist hmw.1 ho (fun p hp => ?_)).symm
  rcases (C02_merge_content _ _ _ hfw hD hfi hDi hm p.1 p.2).1 hp with h | h
  · exact List.mem_of_mem_filter h
  · exact h

/-- Masked events are replaced. -/
theorem applyEventMasks_eq (fill : V) {b : EventArr V} {n : Int} (hb : b.Ok n) :
    ∃ x, applyEventMasks fill b = .ok x ∧ x.indices = b.indices ∧
      ∀ k, x.buffer.data.val (fun _ => k) = if b.masked k then fill else b.buffer.data.val (fun _ => k) := by
  obtain ⟨u, hu, hu1, hu2⟩ := irreducible_loop hb.buffer.data.wf (dim := b.dim) b.buffer.masks none hb.buffer.masks (by simp)
  unfold applyEventMasks irreducibleEventMask irreducibleMask
  rw [hu]
  cases u with
  | none =>
    refine ⟨b, rfl, rfl, fun k => ?_⟩
    have : b.masked k = false := by have := hu2 (fun _ => k); simpa [maskedBy, EventArr.masked] using this.symm
    simp [this]
  | some m =>
    obtain ⟨m1, m2, m3, m4⟩ := hu1 m rfl
    simp only [whereMask, m2.bool, m2.unit, Bool.not_true, Bool.false_eq_true, if_false]
    obtain ⟨x, hx⟩ := (zip_exists (f := fun (b : Bool) (v : V) => if b then fill else v) m1 hb.buffer.data).2
      (fun d x y hx hy => compatible_of_subset hb.buffer.data.wf (fun q hq => hq) d x y (m3 _ hx) hy)
    obtain ⟨x1, x2, x3⟩ := zip_ok m1 hb.buffer.data hx
    rw [hx]
    refine ⟨_, rfl, rfl, fun k => ?_⟩
    have : m.arr.val (fun _ => k) = b.masked k := by have := hu2 (fun _ => k); simpa [maskedBy, EventArr.masked] using this
    simp only [x3, this]

/-- What is read from a bin after filling in masked events. -/
theorem foldl_elems (op : W → V → W) (fill : V) (P : W → Prop) (hfill : ∀ w, P w → op w fill = w)
    (hop : ∀ w v, P w → P (op w v)) {b x : EventArr V} (hx : x.indices = b.indices)
    (hv : ∀ k, x.buffer.data.val (fun _ => k) = if b.masked k then fill else b.buffer.data.val (fun _ => k))
    (c : Dim → Int) (init : W) (hi : P init) : (elems x c).foldl op init = (b.unmasked c).foldl op init := by
  unfold elems EventArr.unmasked
  rw [List.foldl_map, hx]
  simp only [hv]
  exact foldl_fill op fill P hfill hop b.masked (fun k => b.buffer.data.val (fun _ => k)) _ init hi

theorem foldl_P (op : W → V → W) (P : W → Prop) (hop : ∀ w v, P w → P (op w v)) : ∀ (l : List V) (init : W), P init →
    P (l.foldl op init)
  | [], _, h => h
  | v :: l, init, h => foldl_P op P hop l (op init v) (hop init v h)

/-- The result of `reduceBins`. -/
theorem reduceBins_eq (op : W → V → W) (init : W) (fill : V) (P : W → Prop) (hi : P init) (hfill : ∀ w, P w → op w fill = w)
    (hop : ∀ w v, P w → P (op w v)) {b : EventArr V} {n : Int} (hb : b.Ok n) :
    ∃ r, reduceBins op init fill b = .ok r ∧ r.dims = b.indices.dims ∧ ∀ c, r.val c = (b.unmasked c).foldl op init := by
  obtain ⟨x, h1, h2, h3⟩ := applyEventMasks_eq fill hb
  unfold reduceBins
  rw [h1]
  exact ⟨_, rfl, by simp only [h2], fun c => foldl_elems op fill P hfill hop h2 h3 c init hi⟩

theorem unmasked_congr {b : EventArr V} {n : Int} (hb : b.Ok n) {c c' : Dim → Int}
    (h : ∀ d ∈ labels b.indices.dims, c d = c' d) : b.unmasked c = b.unmasked c' := by
  unfold EventArr.unmasked
  rw [hb.indices.own c c' h]

/-- The result of `reduceDimBins`. -/
theorem reduceDimBins_eq (op : W → V → W) (init : W) (fill : V) (P : W → Prop) (hi : P init) (hfill : ∀ w, P w → op w fill = w)
    (hop : ∀ w v, P w → P (op w v)) {b : EventArr V} {n : Int} (hb : b.Ok n) {dim : Dim} {m : Int}
    (hd : (dim, m) ∈ b.indices.dims) :
    ∃ r, reduceDimBins op init fill b dim = .ok r ∧ r.Ok ∧ r.dims = b.indices.dims.filter (fun p => decide (p.1 ≠ dim)) ∧
      ∀ c, r.val c = (intRange 0 m).foldl (fun acc j => (b.unmasked (upd c dim j)).foldl op acc) init := by
  obtain ⟨x, h1, h2, h3⟩ := applyEventMasks_eq fill hb
  have hne : dim ≠ Dim.invalid := fun h => hb.indices.valid (h ▸ mem_labels hd)
  have foldl_all_elems : ∀ (c : Dim → Int) (l : List Int) (w : W), P w → l.foldl (fun acc j => (elems x (upd c dim j)).foldl op acc) w =
      l.foldl (fun acc j => (b.unmasked (upd c dim j)).foldl op acc) w := by
    intro c l
    induction l with
    | nil => intro w _; rfl
    | cons j l ih =>
      intro w hw
      simp only [List.foldl_cons]
      rw [foldl_elems op fill P hfill hop h2 h3 _ w hw]
      exact ih _ (foldl_P op P hop _ _ hw)
  unfold reduceDimBins
  rw [if_neg hne, at?_of_mem hb.indices.wf.1 hd, erase_eq_filter hb.indices.wf.1 (mem_labels hd), h1]
  have hval : ∀ c, (intRange 0 m).foldl (fun acc j => (elems x (upd c dim j)).foldl op acc) init =
      (intRange 0 m).foldl (fun acc j => (b.unmasked (upd c dim j)).foldl op acc) init := by
    intro c
    exact foldl_all_elems c _ init hi
  refine ⟨_, rfl, ⟨sublist_WF List.filter_sublist hb.indices.wf, fun h => hb.indices.valid (labels_filter_mem.1 h).1,
    fun c c' hcc => ?_⟩, rfl, hval⟩
  simp only [hval]
  have : ∀ j, b.unmasked (upd c dim j) = b.unmasked (upd c' dim j) := by
    intro j
    refine unmasked_congr hb (fun d hd' => ?_)
    unfold upd
    by_cases he : d = dim
    · simp [he]
    · simp only [he, if_false]; exact hcc d (labels_filter_mem.2 ⟨hd', he⟩)
  simp only [this]

theorem foldl_flatMap {ι : Type} (op : W → V → W) (f : ι → List V) : ∀ (l : List ι) (init : W),
    (l.flatMap f).foldl op init = l.foldl (fun acc j => (f j).foldl op acc) init
  | [], _ => rfl
  | j :: l, init => by
    rw [List.flatMap_cons, List.foldl_append, List.foldl_cons]
    exact foldl_flatMap op f l _

/-! ### `where` on bins -/

/-- Ranges of the output of an elementwise operation, and where its rows come from. -/
theorem sources_get : ∀ (l : List (Int × Int)) (i : Nat) (off : Int) (j : Nat) (r : Int × Int), (∀ q ∈ l, q.1 ≤ q.2) →
    l[j]? = some r → ∃ a : Nat, (contiguousLoop off l)[j]? = some (off + a, off + a + (r.2 - r.1)) ∧
      a + (r.2 - r.1).toNat ≤ (sourcesFrom i l).length ∧
      ∀ t : Nat, t < (r.2 - r.1).toNat → (sourcesFrom i l)[a + t]? = some (i + j, r.1 + t)
  | [], _, _, _, _, _, h => by simp at h
  | q :: l, i, off, 0, r, hl, h => by
    simp only [List.getElem?_cons_zero, Option.some.injEq] at h
    subst h
    refine ⟨0, ?_, ?_, fun t ht => ?_⟩
    · simp [contiguousLoop]; omega
    · simp [sourcesFrom, intRange]
    · simp only [sourcesFrom, Nat.zero_add]
      rw [List.getElem?_append_left (by simp [intRange]; omega)]
      simp [intRange, ht]
  | q :: l, i, off, j + 1, r, hl, h => by
    have hq := hl q (by simp)
    rw [List.getElem?_cons_succ] at h
    obtain ⟨a, h1, h2, h3⟩ := sources_get l (i + 1) (q.2 + (off - q.1)) j r (fun p hp => hl p (by simp [hp])) h
    refine ⟨(q.2 - q.1).toNat + a, ?_, ?_, fun t ht => ?_⟩
    · simp only [contiguousLoop, List.getElem?_cons_succ, h1, Option.some.injEq, Prod.mk.injEq]
      omega
    · simp only [sourcesFrom, List.length_append, List.length_map, intRange, List.length_range]
      omega
    · simp only [sourcesFrom]
      rw [List.getElem?_append_right (by simp [intRange]; omega)]
      simp only [List.length_map, intRange, List.length_range]
      rw [show (q.2 - q.1).toNat + a + t - (q.2 - q.1).toNat = a + t by omega, h3 t ht]
      simp; omega

theorem maskedAlong_congr {masks masks' : List (Dim × MaskVar)} {dim : Dim} {c c' : Dim → Int}
    (h : masks'.map (fun p => contains p.2.arr.dims dim && p.2.arr.val c') =
      masks.map (fun p => contains p.2.arr.dims dim && p.2.arr.val c)) : maskedAlong masks' dim c' = maskedAlong masks dim c := by
  have e : ∀ (l : List (Dim × MaskVar)) (c : Dim → Int), maskedAlong l dim c =
      (l.map (fun p => contains p.2.arr.dims dim && p.2.arr.val c)).any id := by
    intro l c; simp only [maskedAlong, List.any_map]; rfl
  rw [e, e, h]

theorem filter_map_shift {ι : Type} (m m' : Int → Bool) (f f' : Int → ι) (b b' : Int) (len : Int)
    (h : ∀ t : Nat, t < len.toNat → m' (b' + t) = m (b + t) ∧ f' (b' + t) = f (b + t)) :
    ((intRange b' (b' + len)).filter m').map f' = ((intRange b (b + len)).filter m).map f := by
  unfold intRange
  rw [show b' + len - b' = len by omega, show b + len - b = len by omega, List.filter_map, List.filter_map, List.map_map, List.map_map]
  have e : (List.range len.toNat).filter (m' ∘ fun k : Nat => b' + k) = (List.range len.toNat).filter (m ∘ fun k : Nat => b + k) :=
    List.filter_congr (fun t ht => (h t (List.mem_range.1 ht)).1)
  rw [e]
  exact List.map_congr_left (fun t ht => (h t (List.mem_range.1 (List.mem_filter.1 ht).1)).2)

/-- The result of `where` on bins: the same bins, masked bins filled, the masks of the events as before. -/
theorem whereBins_eq {mask : MaskVar} (hm : mask.arr.Ok) (hp : mask.Plain) (fill : V) {b : EventArr V} {n : Int} (hb : b.Ok n)
    (hmd : Dims.merge mask.arr.dims b.indices.dims = .ok b.indices.dims) (hsub : ∀ p ∈ mask.arr.dims, p ∈ b.indices.dims) :
    ∃ x, whereBins mask fill b = .ok x ∧ (∃ n', x.Ok n') ∧ x.indices.dims = b.indices.dims ∧
      ∀ c, InDims b.indices.dims c → x.unmasked c =
        if mask.arr.val c then (b.unmasked c).map (fun _ => fill) else b.unmasked c := by
  unfold whereBins
  simp only [hp.bool, hp.unit, hmd, Bool.not_true, Bool.false_eq_true, if_false, ne_eq, not_true]
  set values := valuesOf b.indices with hvals
  set src := sourcesFrom 0 values with hsrc
  have hle : ∀ q ∈ values, q.1 ≤ q.2 := by
    intro q hq
    obtain ⟨c, hc, rfl⟩ := mem_valuesOf hb.indices hq
    exact (hb.ranges c hc).2.1
  have hclen : ∀ (l : List (Int × Int)) (o : Int), (contiguousLoop o l).length = l.length := by
    intro l
    induction l with
    | nil => intro o; rfl
    | cons q l ih => intro o; simp [contiguousLoop, ih]
  -- the bin at `c`
  have hbin : ∀ c, InDims b.indices.dims c → ∃ a : Nat,
      (ofValues b.indices.dims (contiguousLoop 0 values)).val c = ((a : Int), a + ((b.indices.val c).2 - (b.indices.val c).1)) ∧
      a + ((b.indices.val c).2 - (b.indices.val c).1).toNat ≤ src.length ∧
      (contiguousLoop 0 values = values → (a : Int) = (b.indices.val c).1) ∧
      ∀ t : Nat, t < ((b.indices.val c).2 - (b.indices.val c).1).toNat →
        src[a + t]? = some ((position b.indices.dims c).toNat, (b.indices.val c).1 + t) := by
    intro c hc
    obtain ⟨a, h1, h2, h3⟩ := sources_get values 0 0 _ _ hle (valuesOf_get hb.indices hc)
    simp only [Int.zero_add, Nat.zero_add] at h1 h3
    refine ⟨a, ofValues_val h1, h2, fun he => ?_, h3⟩
    rw [he, valuesOf_get hb.indices hc] at h1
    simp only [Option.some.injEq] at h1
    rw [h1]
  have hdimv : b.dim ≠ Dim.invalid := by
    have := hb.buffer.data.valid
    rw [hb.size] at this
    simp [labels] at this
    exact fun h => this h.symm
  -- values of the masks
  have hbufw : ∀ p ∈ b.buffer.masks, ∀ c c' : Dim → Int, c b.dim = c' b.dim → p.2.arr.val c = p.2.arr.val c' := by
    intro p hp' c c' hcc
    obtain ⟨o1, _, o3⟩ := hb.buffer.masks p hp'
    refine o1.own _ _ (fun d hd => ?_)
    have := labels_mono o3 d hd
    rw [hb.size] at this
    simp [labels] at this
    rw [this]; exact hcc
  have hdims : ∀ p ∈ b.buffer.masks, contains p.2.arr.dims b.dim = false → p.2.arr.dims = [] := by
    intro p hp' hc
    rw [List.eq_nil_iff_forall_not_mem]
    intro q hq
    have := (hb.buffer.masks p hp').2.2 q hq
    rw [hb.size] at this
    simp at this
    rw [this] at hq
    exact contains_false.1 hc (mem_labels hq)
  refine ⟨_, rfl, ⟨src.length, ?_⟩, rfl, fun c hc => ?_⟩
  · -- the output is usable
    refine ⟨ofValues_ok hb.indices.wf hb.indices.valid _, ⟨⟨?_, ?_, ?_⟩, ?_⟩, rfl, fun c hc => ?_⟩
    · simp [Sizes.WF, labels]
    · simpa [labels] using hdimv.symm
    · intro c c' hcc
      have : c b.dim = c' b.dim := hcc b.dim (by simp [labels])
      simp only [this]
    · intro p hp'
      simp only at hp' ⊢
      split at hp'
      · rename_i hcheap
        obtain ⟨q, hq, rfl⟩ := List.mem_map.1 hp'
        have := hb.buffer.masks q hq
        refine ⟨this.1, ⟨this.2.1.bool, this.2.1.unit⟩, fun r hr => ?_⟩
        rw [← hcheap.1]; exact this.2.2 r hr
      · obtain ⟨q, hq, rfl⟩ := List.mem_map.1 hp'
        have h0 := hb.buffer.masks q hq
        simp only [resizeMask]
        by_cases hcont : contains q.2.arr.dims b.dim = true
        · rw [if_pos hcont]
          refine ⟨⟨by simp [Sizes.WF, labels], by simpa [labels] using hdimv.symm, fun c c' hcc => ?_⟩,
            ⟨h0.2.1.bool, h0.2.1.unit⟩, fun r hr => hr⟩
          have : c b.dim = c' b.dim := hcc b.dim (by simp [labels])
          simp only [this]
        · rw [if_neg hcont]
          refine ⟨h0.1, ⟨h0.2.1.bool, h0.2.1.unit⟩, fun r hr => ?_⟩
          have : q.2.arr.dims = [] := hdims q hq (by simpa using hcont)
          simp [MaskVar.copy, this] at hr
    · obtain ⟨a, h1, h2, _⟩ := hbin c hc
      simp only [h1]
      have := (hb.ranges c hc).2.1
      omega
  · obtain ⟨a, h1, h2, h3, h4⟩ := hbin c hc
    have hr := hb.ranges c hc
    -- one row of the output
    have hmaskc : mask.arr.val (coordsOf b.indices.dims ((position b.indices.dims c).toNat : Nat)) = mask.arr.val c :=
      Bins.val_coordsOf hm hsub hb.indices.wf hc
    have hcont : ∀ (m : MaskVar), contains (resizeMask b.dim src m).arr.dims b.dim = contains m.arr.dims b.dim := by
      intro m
      unfold resizeMask
      by_cases h : contains m.arr.dims b.dim = true
      · rw [if_pos h, h]; exact contains_iff.2 (by simp [labels])
      · rw [if_neg h]; rfl
    rw [show (if mask.arr.val c = true then (b.unmasked c).map (fun _ => fill) else b.unmasked c) =
      ((intRange (b.indices.val c).1 ((b.indices.val c).1 + ((b.indices.val c).2 - (b.indices.val c).1))).filter
        (fun k => !b.masked k)).map (fun k => if mask.arr.val c then fill else b.buffer.data.val (fun _ => k)) by
      rw [show (b.indices.val c).1 + ((b.indices.val c).2 - (b.indices.val c).1) = (b.indices.val c).2 by omega]
      unfold EventArr.unmasked
      by_cases hmc : mask.arr.val c = true
      · simp only [hmc, if_true, List.map_map]; rfl
      · simp only [hmc, Bool.false_eq_true, if_false]]
    simp only [EventArr.unmasked, h1]
    refine filter_map_shift _ _ _ _ _ _ _ (fun t ht => ?_)
    have hs := h4 t ht
    have hnat : ((a : Int) + (t : Int)).toNat = a + t := by omega
    refine ⟨?_, ?_⟩
    · refine congrArg (fun b => !b) ?_
      unfold EventArr.masked
      refine maskedAlong_congr ?_
      simp only
      split
      · rename_i hcheap
        rw [List.map_map]
        refine List.map_congr_left (fun p hp' => ?_)
        simp only [Function.comp, MaskVar.copy]
        rw [h3 hcheap.2]
      · rw [List.map_map]
        refine List.map_congr_left (fun p hp' => ?_)
        simp only [Function.comp, hcont]
        by_cases h : contains p.2.arr.dims b.dim = true
        · simp only [h, Bool.true_and, resizeMask, if_true, hnat, hs, Option.getD_some]
        · simp only [Bool.not_eq_true] at h
          simp only [h, Bool.false_and]
    · simp only [hnat, hs, Option.getD_some, hmaskc]

/-- `reduce_impl` for binned data. -/
theorem reduceImplBins_eq (op : W → V → W) (init : W) (fill : V) (P : W → Prop) (hi : P init) (hfill : ∀ w, P w → op w fill = w)
    (hop : ∀ w v, P w → P (op w v)) {b : EventArr V} {n : Int} (hb : b.Ok n) {masks : List (Dim × MaskVar)}
    (hm : MasksFit masks b.indices.dims) {dim : Dim} {m : Int} (hd : (dim, m) ∈ b.indices.dims) :
    ∃ r, reduceImplBins op init fill b masks dim = .ok r ∧ r.Ok ∧ r.dims = b.indices.dims.filter (fun p => decide (p.1 ≠ dim)) ∧
      ∀ c, InDims r.dims c → r.val c = (b.unmaskedAlong masks dim m c).foldl op init := by
  obtain ⟨u, hu, hu1, hu2⟩ := irreducible_loop hb.indices.wf (dim := dim) masks none hm (by simp)
  unfold reduceImplBins irreducibleMask
  rw [hu]
  cases u with
  | none =>
    simp only
    obtain ⟨r, h1, h0, h2, h3⟩ := reduceDimBins_eq op init fill P hi hfill hop hb hd
    refine ⟨r, h1, h0, h2, fun c _ => ?_⟩
    have : ∀ c, maskedAlong masks dim c = false := by
      intro c; have := hu2 c; simpa [maskedBy] using this.symm
    rw [h3, EventArr.unmaskedAlong, foldl_flatMap]
    simp [this]
  | some mk =>
    obtain ⟨m1, m2, m3, m4⟩ := hu1 mk rfl
    have hne : mk.arr.dims ≠ [] := by intro hc; rw [hc] at m4; simp at m4
    simp only [intersection_of_includes hb.indices.wf m1.wf hb.indices.valid m3, Arr.transpose,
      transpose_common m1.wf m1.valid hb.indices.wf m3 hne]
    set f := b.indices.dims.filter (fun p => contains mk.arr.dims p.1) with hf
    have hfw : WF f := sublist_WF List.filter_sublist hb.indices.wf
    have hfi : Dim.invalid ∉ labels f := fun hc => hb.indices.valid (labels_mono (fun p hp => List.mem_of_mem_filter hp) _ hc)
    have hfarr : (⟨f, mk.arr.val⟩ : Arr Bool).Ok := by
      refine ⟨hfw, hfi, fun c c' hcc => m1.own c c' (fun d hd' => hcc d ?_)⟩
      obtain ⟨x, hx⟩ := at?_ok_of_mem_labels hd'
      have hx := at?_ok_mem hx
      exact mem_labels (x := x) (List.mem_filter.2 ⟨m3 _ hx, contains_iff.2 (mem_labels hx)⟩)
    obtain ⟨x, x1, ⟨n', x2⟩, x3, x4⟩ := whereBins_eq (mask := { mk with arr := ⟨f, mk.arr.val⟩ }) hfarr ⟨m2.bool, m2.unit⟩ fill hb
      (merge_filter hb.indices.wf hb.indices.valid _ (fun p _ p' _ h => by simp only [h]))
      (fun p hp => List.mem_of_mem_filter hp)
    rw [x1]
    simp only
    obtain ⟨r, h1, h0, h2, h3⟩ := reduceDimBins_eq op init fill P hi hfill hop x2 (dim := dim) (m := m) (by rw [x3]; exact hd)
    refine ⟨r, h1, h0, by rw [h2, x3], fun c hc => ?_⟩
    rw [h3, EventArr.unmaskedAlong, foldl_flatMap]
    have hval : ∀ c, mk.arr.val c = maskedAlong masks dim c := by
      intro c; have := hu2 c; simpa [maskedBy] using this
    have hin : ∀ j, 0 ≤ j → j < m → InDims b.indices.dims (upd c dim j) := by
      intro j hj1 hj2 e x hex
      by_cases he : e = dim
      · subst he
        have : x = m := compatible_of_subset hb.indices.wf (fun q hq => hq) e x m hex hd
        simp only [upd, if_true]; omega
      · simp only [upd, he, if_false]
        refine hc e x ?_
        rw [h2, x3]
        exact List.mem_filter.2 ⟨hex, by simpa using he⟩
    have hconst : ∀ (l : List V) (w : W), P w → (l.map (fun _ => fill)).foldl op w = w := by
      intro l
      induction l with
      | nil => intro w _; rfl
      | cons v l ih => intro w hw; simp only [List.map_cons, List.foldl_cons, hfill w hw]; exact ih w hw
    have key : ∀ (l : List Int) (w : W), (∀ j ∈ l, 0 ≤ j ∧ j < m) → P w →
        l.foldl (fun acc j => (x.unmasked (upd c dim j)).foldl op acc) w =
          (l.filter (fun j => !maskedAlong masks dim (upd c dim j))).foldl
            (fun acc j => (b.unmasked (upd c dim j)).foldl op acc) w := by
      intro l
      induction l with
      | nil => intro w _ _; rfl
      | cons j l ih =>
        intro w hl hw
        have hj := hl j (by simp)
        simp only [List.foldl_cons]
        rw [x4 _ (hin j hj.1 hj.2)]
        simp only [hval]
        by_cases hmk : maskedAlong masks dim (upd c dim j) = true
        · rw [if_pos hmk, hconst _ w hw, ih w (fun q hq => hl q (by simp [hq])) hw]
          simp [hmk]
        · rw [if_neg hmk, ih _ (fun q hq => hl q (by simp [hq])) (foldl_P op P hop _ _ hw)]
          simp [hmk]
    exact key _ init (fun j hj => by rw [mem_intRange] at hj; exact hj) hi

end Scipp.EventMasks
