import Verif.Lemmas.EventMasks
import Verif.Lemmas.HistArray
import Mathlib.Tactic.Ring
import Mathlib.Algebra.BigOperators.Group.Finset.Basic
import Mathlib.Algebra.BigOperators.Group.List.Basic
/-!
C69: reductions of binned data, with masks of events and masks of bins.
-/
namespace Scipp.Props
open Scipp Scipp.Sizes Scipp.EventMasks
open Scipp.Bins (valuesOf ofValues contiguousLoop)

section Generic
variable {V W : Type}

/-- One value per bin: `f` of the events of the bin which are not masked. -/
def ReducesBins (b : EventArr V) (f : List V → W) (r : Except Err (Arr W)) : Prop :=
  ∃ out, r = .ok out ∧ out.dims = b.indices.dims ∧ ∀ c, out.val c = f (b.unmasked c)

/-- One value per bin without `dim`: `f` of the unmasked events in the unmasked bins along `dim`. -/
def ReducesAlong (b : EventArr V) (masks : List (Dim × MaskVar)) (dim : Dim) (m : Int) (f : List V → W)
    (r : Except Err (Arr W)) : Prop :=
  ∃ out, r = .ok out ∧ out.dims = b.indices.dims.filter (fun p => decide (p.1 ≠ dim)) ∧
    ∀ c, InDims out.dims c → out.val c = f (b.unmaskedAlong masks dim m c)

theorem reduces_both (op : W → V → W) (init : W) (fill : V) (P : W → Prop) (hi : P init) (hfill : ∀ w, P w → op w fill = w)
    (hop : ∀ w v, P w → P (op w v)) (f : List V → W) (hf : ∀ l, l.foldl op init = f l) {b : EventArr V} {n : Int} (hb : b.Ok n) :
    ReducesBins b f (reduceBins op init fill b) ∧
    ∀ masks dim m, MasksFit masks b.indices.dims → (dim, m) ∈ b.indices.dims →
      ReducesAlong b masks dim m f (reduceImplBins op init fill b masks dim) := by
  constructor
  · obtain ⟨r, h1, h2, h3⟩ := reduceBins_eq op init fill P hi hfill hop hb
    exact ⟨r, h1, h2, fun c => by rw [h3, hf]⟩
  · intro masks dim m hm hd
    obtain ⟨r, h1, _, h2, h3⟩ := reduceImplBins_eq op init fill P hi hfill hop hb hm hd
    exact ⟨r, h1, h2, fun c hc => by rw [h3 c hc, hf]⟩

/-- **C69** (`bins.sum` and `sum`; also for elements with variances or vectors, all that matters is `x + 0 = x`): the unmasked
events are added up in order. -/
theorem C69_sum (add : V → V → V) (zero : V) (h0 : ∀ x, add x zero = x) (b : EventArr V) (n : Int) (hb : b.Ok n) :
    ReducesBins b (fun l => l.foldl add zero) (reduceBins add zero zero b) ∧
    ∀ masks dim m, MasksFit masks b.indices.dims → (dim, m) ∈ b.indices.dims →
      ReducesAlong b masks dim m (fun l => l.foldl add zero) (reduceImplBins add zero zero b masks dim) :=
  reduces_both add zero zero (fun _ => True) trivial (fun w _ => h0 w) (fun _ _ _ => trivial) _ (fun _ => rfl) hb

/-- **C69** (`bins.nansum` and `nansum`): NaN is skipped, too. -/
theorem C69_nansum (add : V → V → V) (zero : V) (isnan : V → Bool) (h0 : ∀ x, add x zero = x) (b : EventArr V) (n : Int)
    (hb : b.Ok n) :
    ReducesBins b (fun l => (l.filter (fun x => !isnan x)).foldl add zero)
      (reduceBins (fun acc x => if isnan x then acc else add acc x) zero zero b) ∧
    ∀ masks dim m, MasksFit masks b.indices.dims → (dim, m) ∈ b.indices.dims →
      ReducesAlong b masks dim m (fun l => (l.filter (fun x => !isnan x)).foldl add zero)
        (reduceImplBins (fun acc x => if isnan x then acc else add acc x) zero zero b masks dim) := by
  refine reduces_both _ zero zero (fun _ => True) trivial (fun w _ => by simp only [h0]; split <;> rfl) (fun _ _ _ => trivial) _
    (fun l => ?_) hb
  have : ∀ (l : List V) (w : V), l.foldl (fun acc x => if isnan x then acc else add acc x) w =
      (l.filter (fun x => !isnan x)).foldl add w := by
    intro l
    induction l with
    | nil => intro w; rfl
    | cons v l ih =>
      intro w
      simp only [List.foldl_cons, ih]
      by_cases h : isnan v = true <;> simp [h]
  exact this l zero

/-- **C69** (`bins.any` and `any`). -/
theorem C69_any (b : EventArr Bool) (n : Int) (hb : b.Ok n) :
    ReducesBins b (fun l => decide (true ∈ l)) (reduceBins (fun x y => x || y) false false b) ∧
    ∀ masks dim m, MasksFit masks b.indices.dims → (dim, m) ∈ b.indices.dims →
      ReducesAlong b masks dim m (fun l => decide (true ∈ l)) (reduceImplBins (fun x y => x || y) false false b masks dim) :=
  reduces_both _ false false (fun _ => True) trivial (fun w _ => by simp) (fun _ _ _ => trivial) _
    (fun l => by rw [foldl_any]; simp) hb

/-- **C69** (`bins.all` and `all`). -/
theorem C69_all (b : EventArr Bool) (n : Int) (hb : b.Ok n) :
    ReducesBins b (fun l => decide (false ∉ l)) (reduceBins (fun x y => x && y) true true b) ∧
    ∀ masks dim m, MasksFit masks b.indices.dims → (dim, m) ∈ b.indices.dims →
      ReducesAlong b masks dim m (fun l => decide (false ∉ l)) (reduceImplBins (fun x y => x && y) true true b masks dim) :=
  reduces_both _ true true (fun _ => True) trivial (fun w _ => by simp) (fun _ _ _ => trivial) _
    (fun l => by rw [foldl_all]; simp) hb

end Generic

section MinMax
variable {α : Type} [LinearOrder α]

/-- **C69** (`bins.max` and `max`, with `lowest` for `std::numeric_limits<T>::lowest()`): NaN if an unmasked event is NaN,
otherwise the maximum of `lowest` and the unmasked events. -/
theorem C69_max (lowest : α) (b : EventArr (Option α)) (n : Int) (hb : b.Ok n) :
    ReducesBins b (fun l => if none ∈ l then none else some ((l.filterMap id).foldl max lowest))
      (reduceBins maxEquals (some lowest) (some lowest) b) ∧
    ∀ masks dim m, MasksFit masks b.indices.dims → (dim, m) ∈ b.indices.dims →
      ReducesAlong b masks dim m (fun l => if none ∈ l then none else some ((l.filterMap id).foldl max lowest))
        (reduceImplBins maxEquals (some lowest) (some lowest) b masks dim) := by
  refine reduces_both maxEquals (some lowest) (some lowest) (fun w => ∀ x, w = some x → lowest ≤ x)
    (by rintro x ⟨⟩; exact le_refl _) (fun w hw => ?_) (fun w v hw x hx => ?_) _ (fun l => foldl_max l lowest) hb
  · cases w with
    | none => rfl
    | some x => rw [maxEquals_some, max_eq_left (hw x rfl)]
  · cases v with
    | none => simp [maxEquals] at hx
    | some y =>
      cases w with
      | none => simp [maxEquals] at hx
      | some z =>
        rw [maxEquals_some] at hx
        cases hx
        exact le_trans (hw z rfl) (le_max_left _ _)

/-- **C69** (`bins.min` and `min`, with `highest` for `std::numeric_limits<T>::max()`). -/
theorem C69_min (highest : α) (b : EventArr (Option α)) (n : Int) (hb : b.Ok n) :
    ReducesBins b (fun l => if none ∈ l then none else some ((l.filterMap id).foldl min highest))
      (reduceBins minEquals (some highest) (some highest) b) ∧
    ∀ masks dim m, MasksFit masks b.indices.dims → (dim, m) ∈ b.indices.dims →
      ReducesAlong b masks dim m (fun l => if none ∈ l then none else some ((l.filterMap id).foldl min highest))
        (reduceImplBins minEquals (some highest) (some highest) b masks dim) := by
  refine reduces_both minEquals (some highest) (some highest) (fun w => ∀ x, w = some x → x ≤ highest)
    (by rintro x ⟨⟩; exact le_refl _) (fun w hw => ?_) (fun w v hw x hx => ?_) _ (fun l => foldl_min l highest) hb
  · cases w with
    | none => rfl
    | some x => rw [minEquals_some, min_eq_left (hw x rfl)]
  · cases v with
    | none => simp [minEquals] at hx
    | some y =>
      cases w with
      | none => simp [minEquals] at hx
      | some z =>
        rw [minEquals_some] at hx
        cases hx
        exact le_trans (min_le_left _ _) (hw z rfl)

end MinMax

/-! ### Counts -/

theorem foldl_addBool : ∀ (l : List Bool) (acc : Int), l.foldl addBool acc = acc + ((l.filter id).length : Int)
  | [], acc => by simp
  | true :: l, acc => by simp [addBool, foldl_addBool l]; ring
  | false :: l, acc => by simp [addBool, foldl_addBool l]

section Count
variable {V : Type}

/-- The inverted masks, if there are any. -/
theorem unmaskedEventsVar_eq {b : EventArr V} {n : Int} (hb : b.Ok n) :
    (unmaskedEventsVar b = .ok none ∧ ∀ k, b.masked k = false) ∨
    (∃ u, unmaskedEventsVar b = .ok (some u) ∧ u.Ok n ∧ u.indices = b.indices ∧
      ∀ c, u.unmasked c = (intRange (b.indices.val c).1 (b.indices.val c).2).map (fun k => !b.masked k)) := by
  obtain ⟨u, hu, hu1, hu2⟩ := irreducible_loop hb.buffer.data.wf (dim := b.dim) b.buffer.masks none hb.buffer.masks (by simp)
  unfold unmaskedEventsVar irreducibleEventMask irreducibleMask
  rw [hu]
  cases u with
  | none =>
    refine .inl ⟨rfl, fun k => ?_⟩
    have := hu2 (fun _ => k); simpa [maskedBy, EventArr.masked] using this.symm
  | some m =>
    obtain ⟨m1, m2, m3, m4⟩ := hu1 m rfl
    simp only [m2.bool, m2.unit, Bool.not_true, Bool.false_eq_true, if_false]
    have hmd : m.arr.dims = [(b.dim, n)] := by
      obtain ⟨x, hx⟩ := at?_ok_of_mem_labels m4
      have hx := at?_ok_mem hx
      have hn := m1.wf.1
      rw [hb.size] at m3
      match hl : m.arr.dims with
      | [] => rw [hl] at hx; simp at hx
      | [p] =>
        have := m3 p (by rw [hl]; simp)
        simp at this
        rw [this]
      | p :: q :: l =>
        have h1 := m3 p (by rw [hl]; simp)
        have h2 := m3 q (by rw [hl]; simp)
        simp at h1 h2
        rw [hl, h1, h2] at hn
        simp [labels] at hn
    refine .inr ⟨_, rfl, ⟨hb.indices, ⟨⟨m1.wf, m1.valid, fun c c' h => ?_⟩, by simp⟩, hmd, hb.ranges⟩, rfl, fun c => ?_⟩
    · simp only; rw [m1.own c c' h]
    · have hmk : ∀ k, m.arr.val (fun _ => k) = b.masked k := by
        intro k; have := hu2 (fun _ => k); simpa [maskedBy, EventArr.masked] using this
      simp [EventArr.unmasked, EventArr.masked, maskedAlong, hmk]

theorem inverted_count (b : EventArr V) (c : Dim → Int) :
    (((intRange (b.indices.val c).1 (b.indices.val c).2).map (fun k => !b.masked k)).filter id).length = (b.unmasked c).length := by
  simp only [EventArr.unmasked, List.length_map, List.filter_map]
  rfl

theorem unmasked_length {b : EventArr V} {n : Int} (hb : b.Ok n) (hm : ∀ k, b.masked k = false) {c : Dim → Int}
    (hc : InDims b.indices.dims c) : ((b.unmasked c).length : Int) = (b.indices.val c).2 - (b.indices.val c).1 := by
  have := hb.ranges c hc
  simp [EventArr.unmasked, hm, intRange]
  omega

theorem inDims_upd {D : Dims} (hD : WF D) {dim : Dim} {m : Int} (hd : (dim, m) ∈ D) {c : Dim → Int}
    (hc : InDims (D.filter (fun p => decide (p.1 ≠ dim))) c) {j : Int} (h0 : 0 ≤ j) (h1 : j < m) : InDims D (upd c dim j) := by
  intro e x hex
  by_cases he : e = dim
  · subst he
    have : x = m := compatible_of_subset hD (fun q hq => hq) e x m hex hd
    simp only [upd, if_true]; omega
  · simp only [upd, he, if_false]
    exact hc e x (List.mem_filter.2 ⟨hex, by simpa using he⟩)

theorem binsCount_eq {b : EventArr V} {n : Int} (hb : b.Ok n) : ∃ r, binsCount b = .ok r ∧ r.dims = b.indices.dims ∧
    ∀ c, InDims b.indices.dims c → r.val c = (b.unmasked c).length := by
  unfold binsCount
  rcases unmaskedEventsVar_eq hb with ⟨h1, h2⟩ | ⟨u, h1, h2, h3, h4⟩
  · rw [h1]
    exact ⟨_, rfl, rfl, fun c hc => (unmasked_length hb h2 hc).symm⟩
  · rw [h1]
    obtain ⟨r, r1, r2, r3⟩ := reduceBins_eq addBool 0 false (fun _ => True) trivial (fun w _ => by simp [addBool])
      (fun _ _ _ => trivial) h2
    refine ⟨r, r1, by rw [r2, h3], fun c _ => ?_⟩
    rw [r3, foldl_addBool, h4, inverted_count]; simp

theorem foldl_add_length {ι : Type} (f : ι → List V) : ∀ (l : List ι) (acc : Int),
    l.foldl (fun acc j => acc + ((f j).length : Int)) acc = acc + ((l.flatMap f).length : Int)
  | [], acc => by simp
  | j :: l, acc => by rw [List.foldl_cons, foldl_add_length f l]; simp; ring

theorem foldl_congr_mem {ι W : Type} (f g : W → ι → W) : ∀ (l : List ι) (w : W), (∀ j ∈ l, ∀ w, f w j = g w j) →
    l.foldl f w = l.foldl g w
  | [], _, _ => rfl
  | j :: l, w, h => by
    rw [List.foldl_cons, List.foldl_cons, h j (by simp), foldl_congr_mem f g l _ (fun i hi => h i (by simp [hi]))]

theorem countDim_eq {b : EventArr V} {n : Int} (hb : b.Ok n) {dim : Dim} {m : Int} (hd : (dim, m) ∈ b.indices.dims) :
    ∃ r, countDim b dim = .ok r ∧ r.dims = b.indices.dims.filter (fun p => decide (p.1 ≠ dim)) ∧
    ∀ c, InDims r.dims c → r.val c = (b.unmaskedAlong [] dim m c).length := by
  have e : ∀ c, b.unmaskedAlong [] dim m c = (intRange 0 m).flatMap (fun j => b.unmasked (upd c dim j)) := by
    intro c; simp [EventArr.unmaskedAlong, maskedAlong]
  unfold countDim
  rcases unmaskedEventsVar_eq hb with ⟨h1, h2⟩ | ⟨u, h1, h2, h3, h4⟩
  · rw [h1]
    refine ⟨_, reduceDim_eq _ 0 (Bins.binSizes_ok hb.indices) hd, rfl, fun c hc => ?_⟩
    simp only
    rw [foldl_congr_mem _ (fun acc j => acc + ((b.unmasked (upd c dim j)).length : Int)), foldl_add_length, e]
    · simp
    · intro j hj w
      rw [mem_intRange] at hj
      rw [unmasked_length hb h2 (inDims_upd hb.indices.wf hd hc hj.1 hj.2)]
      rfl
  · rw [h1]
    obtain ⟨r, r1, _, r2, r3⟩ := reduceDimBins_eq addBool 0 false (fun _ => True) trivial (fun w _ => by simp [addBool])
      (fun _ _ _ => trivial) h2 (dim := dim) (m := m) (by rw [h3]; exact hd)
    refine ⟨r, r1, by rw [r2, h3], fun c _ => ?_⟩
    rw [r3, e]
    simp only [foldl_addBool, h4, inverted_count]
    rw [foldl_add_length]; simp

end Count

/-! ### Means -/

section Mean
variable {K : Type} [Field K]

theorem normalizeInt_mean (l : List K) : normalizeInt (l.foldl (· + ·) 0) (l.length : Int) = meanOf l := by
  rw [foldl_add_eq_sum]
  unfold normalizeInt meanOf
  by_cases h : l.length = 0
  · simp [h]
  · rw [if_neg (by exact_mod_cast h), if_neg h, zero_add, div_eq_mul_inv]
    simp

theorem zip_same {U V W : Type} (f : U → V → W) {a : Arr U} {b : Arr V} (hw : WF a.dims) (hi : Dim.invalid ∉ labels a.dims)
    (h : b.dims = a.dims) : Arr.zip f a b = .ok ⟨a.dims, fun c => f (a.val c) (b.val c)⟩ := by
  unfold Arr.zip
  rw [h, merge_of_includes hw hw hi (fun p hp => hp)]

/-- **C69** (`bins.mean`): the mean of the events of each bin which are not masked, NaN if there is none. -/
theorem C69_bins_mean (b : EventArr K) (n : Int) (hb : b.Ok n) :
    ∃ out, binsMean b = .ok out ∧ out.dims = b.indices.dims ∧
      ∀ c, InDims b.indices.dims c → out.val c = meanOf (b.unmasked c) := by
  obtain ⟨⟨s, s1, s2, s3⟩, _⟩ := C69_sum (fun x y : K => x + y) 0 (by simp) b n hb
  obtain ⟨r, r1, r2, r3⟩ := binsCount_eq hb
  unfold binsMean
  simp only [s1, r1, zip_same normalizeInt (a := s) (b := r) (by rw [s2]; exact hb.indices.wf) (by rw [s2]; exact hb.indices.valid)
    (by rw [r2, s2])]
  refine ⟨_, rfl, s2, fun c hc => ?_⟩
  simp only [s3, r3 c hc]
  exact normalizeInt_mean _

/-- **C69** (`mean` along a dim, without masks of bins): the mean of the unmasked events. -/
theorem C69_mean_partial (kind : BufferKind) (b : EventArr K) (n : Int) (hb : b.Ok n) (masks : List (Dim × MaskVar)) (dim : Dim)
    (m : Int) (hd : (dim, m) ∈ b.indices.dims) (hm : ∀ p ∈ masks, dim ∉ labels p.2.arr.dims) :
    ReducesAlong b masks dim m meanOf (meanImplBins kind b masks dim) := by
  have hirr : irreducibleMask masks dim = .ok none := by
    unfold irreducibleMask
    induction masks with
    | nil => rfl
    | cons p l ih =>
      have : contains p.2.arr.dims dim = false := contains_false.2 (hm p (by simp))
      simp only [List.foldlM_cons, irreducibleStep, this, Bool.false_eq_true, if_false, bind, Except.bind]
      exact ih (fun q hq => hm q (by simp [hq]))
  have hno : ∀ c, maskedAlong masks dim c = false := by
    intro c
    simp only [maskedAlong, List.any_eq_false]
    intro p hp
    simp [contains_false.2 (hm p hp)]
  unfold meanImplBins
  rw [hirr]
  simp only
  obtain ⟨r, r1, r2, r3⟩ := countDim_eq hb hd
  obtain ⟨s, s1, _, s2, s3⟩ := reduceDimBins_eq (fun x y : K => x + y) 0 0 (fun _ => True) trivial (fun w _ => by simp)
    (fun _ _ _ => trivial) hb hd
  unfold meanDim
  have hsw : WF s.dims := by rw [s2]; exact sublist_WF List.filter_sublist hb.indices.wf
  have hsi : Dim.invalid ∉ labels s.dims := by rw [s2]; exact fun h => hb.indices.valid (labels_filter_mem.1 h).1
  simp only [s1, r1, zip_same normalizeInt hsw hsi (show r.dims = s.dims by rw [r2, s2])]
  refine ⟨_, rfl, s2, fun c hc => ?_⟩
  simp only at hc ⊢
  rw [r3 c (by rw [r2, ← s2]; exact hc), s3]
  have e : b.unmaskedAlong masks dim m c = b.unmaskedAlong [] dim m c := by
    simp only [EventArr.unmaskedAlong, hno]; simp [maskedAlong]
  rw [e, ← normalizeInt_mean, EventArr.unmaskedAlong, foldl_flatMap]
  simp [maskedAlong]

/-- The mask of bins used by a reduction, if there is one. -/
theorem irreducible_some {masks : List (Dim × MaskVar)} {dim : Dim} {D : Dims} (hw : WF D) (hm : MasksFit masks D)
    (hex : ∃ p ∈ masks, dim ∈ labels p.2.arr.dims) :
    ∃ mk, irreducibleMask masks dim = .ok (some mk) ∧ mk.arr.Ok ∧ mk.Plain ∧ (∀ q ∈ mk.arr.dims, q ∈ D) ∧
      dim ∈ labels mk.arr.dims ∧ ∀ c, mk.arr.val c = maskedAlong masks dim c := by
  obtain ⟨u, hu, hu1, hu2⟩ := irreducible_loop hw (dim := dim) masks none hm (by simp)
  have hsome : ∃ mk, u = some mk := by
    obtain ⟨p, hp, hpd⟩ := hex
    have key : ∀ (l : List (Dim × MaskVar)) (v w : Option MaskVar), l.foldlM (irreducibleStep dim) v = .ok w →
        (v.isSome ∨ ∃ p ∈ l, dim ∈ labels p.2.arr.dims) → w.isSome := by
      intro l
      induction l with
      | nil =>
        intro v w h hv
        injection h with h
        subst h
        simpa using hv
      | cons q l ih =>
        intro v w h hv
        simp only [List.foldlM_cons, bind, Except.bind] at h
        split at h
        · cases h
        · rename_i v' hv'
          refine ih v' w h ?_
          unfold irreducibleStep at hv'
          by_cases hc : contains q.2.arr.dims dim = true
          · rw [if_pos hc] at hv'
            left
            split at hv'
            · injection hv' with hv'; subst hv'; rfl
            · split at hv'
              · cases hv'
              · injection hv' with hv'; subst hv'; rfl
          · rw [if_neg hc] at hv'
            injection hv' with hv'
            subst hv'
            rcases hv with hv | ⟨p, hp, hpd⟩
            · exact .inl hv
            · rcases List.mem_cons.1 hp with rfl | hp
              · exact absurd (contains_iff.2 hpd) hc
              · exact .inr ⟨p, hp, hpd⟩
    exact Option.isSome_iff_exists.1 (key masks none u hu (.inr ⟨p, hp, hpd⟩))
  obtain ⟨mk, rfl⟩ := hsome
  obtain ⟨m1, m2, m3, m4⟩ := hu1 mk rfl
  exact ⟨mk, hu, m1, m2, m3, m4, fun c => by simpa [maskedBy] using hu2 c⟩

/-- **C69** fails for `mean` with a mask of bins: no result for binned data with coords or masks of events (`bin<DataArray>`). -/
theorem C69_wrong_for_mean (b : EventArr K) (masks : List (Dim × MaskVar)) (dim : Dim) (hm : MasksFit masks b.indices.dims)
    (hw : WF b.indices.dims) (hex : ∃ p ∈ masks, dim ∈ labels p.2.arr.dims) (n : Int) (hd : (dim, n) ∈ b.indices.dims) :
    meanImplBins .dataArray b masks dim = .error .binned := by
  obtain ⟨mk, hu, m1, m2, m3, m4, _⟩ := irreducible_some hw hm hex
  obtain ⟨x, hx⟩ := at?_ok_of_mem_labels m4
  unfold meanImplBins
  rw [hu]
  simp only [reduceDim_eq _ _ m1 (at?_ok_mem hx), whereZeroLike]

/-- **C69** fails for `mean` with a mask of bins, `bin<Variable>`: an error as soon as there is an event. -/
theorem C69_wrong_for_variable (b : EventArr K) (n : Int) (hb : b.Ok n) (masks : List (Dim × MaskVar)) (dim : Dim)
    (hm : MasksFit masks b.indices.dims) (hex : ∃ p ∈ masks, dim ∈ labels p.2.arr.dims)
    (hne : ∃ c, InDims b.indices.dims c ∧ (b.indices.val c).1 < (b.indices.val c).2) :
    meanImplBins .variable b masks dim = .error .binned := by
  obtain ⟨mk, hu, m1, m2, m3, m4, _⟩ := irreducible_some hb.indices.wf hm hex
  obtain ⟨x, hx⟩ := at?_ok_of_mem_labels m4
  obtain ⟨D, hD, -, -⟩ := merge_sub m1.wf hb.indices.wf hb.indices.valid m3
  have hall : (valuesOf b.indices).all (fun r => decide (r.2 - r.1 = 0)) = false := by
    obtain ⟨c, hc, hlt⟩ := hne
    refine List.all_eq_false.2 ⟨b.indices.val c, ?_, by simp; omega⟩
    exact List.mem_of_getElem? (Bins.valuesOf_get hb.indices hc)
  unfold meanImplBins
  rw [hu]
  simp only [reduceDim_eq _ _ m1 (at?_ok_mem hx), whereZeroLike, m2.1, m2.2, hD, hall]
  rfl

/-- **C69** fails for `mean` with a mask of bins, `bin<Variable>` without events: 0 unless all bins are masked, although the mean of no events
is NaN. -/
theorem C69_mean_no_events (b : EventArr K) (n : Int) (hb : b.Ok n) (masks : List (Dim × MaskVar)) (dim : Dim) (m : Int)
    (hd : (dim, m) ∈ b.indices.dims) (hm : MasksFit masks b.indices.dims) (hex : ∃ p ∈ masks, dim ∈ labels p.2.arr.dims)
    (hempty : ∀ c, InDims b.indices.dims c → (b.indices.val c).1 = (b.indices.val c).2) :
    ∃ out, meanImplBins .variable b masks dim = .ok out ∧
      out.dims.Perm (b.indices.dims.filter (fun p => decide (p.1 ≠ dim))) ∧
      ∀ c, ((∀ j, 0 ≤ j → j < m → maskedAlong masks dim (upd c dim j) = true) → out.val c = none) ∧
        ((∃ j, 0 ≤ j ∧ j < m ∧ maskedAlong masks dim (upd c dim j) = false) → out.val c = some 0) := by
  obtain ⟨mk, hu, m1, m2, m3, m4, m5⟩ := irreducible_some hb.indices.wf hm hex
  obtain ⟨x, hx⟩ := at?_ok_of_mem_labels m4
  have hxm : x = m := by
    have h1 := at?_of_mem hb.indices.wf.1 (m3 _ (at?_ok_mem hx))
    rw [at?_of_mem hb.indices.wf.1 hd] at h1
    injection h1 with h1
    exact h1.symm
  subst hxm
  obtain ⟨D, hD, hDp, hDw⟩ := merge_sub m1.wf hb.indices.wf hb.indices.valid m3
  have hall : (valuesOf b.indices).all (fun r => decide (r.2 - r.1 = 0)) = true := by
    refine List.all_eq_true.2 fun r hr => ?_
    obtain ⟨c, hc, rfl⟩ := Bins.mem_valuesOf hb.indices hr
    have := hempty c hc
    simp only [decide_eq_true_eq]
    omega
  obtain ⟨X, hX⟩ : ∃ X : EventArr K, X = ⟨⟨D, fun _ => (0, 0)⟩, b.dim, ⟨⟨[(b.dim, 0)], b.buffer.data.val⟩, []⟩⟩ := ⟨_, rfl⟩
  have hDi : Dim.invalid ∉ labels D := fun h => hb.indices.valid ((hDp.map Prod.fst).mem_iff.1 h)
  have hXok : X.Ok 0 := by
    subst hX
    refine ⟨⟨hDw, hDi, fun _ _ _ => rfl⟩, ⟨⟨by simp [WF, labels], ?_, fun c c' h => ?_⟩, by simp⟩, rfl,
      fun _ _ => ⟨le_refl _, le_refl _, le_refl _⟩⟩
    · have := hb.buffer.data.valid
      rw [hb.size] at this
      simpa [labels] using this
    · refine hb.buffer.data.own c c' fun e he => h e ?_
      rw [hb.size] at he
      simpa [labels] using he
  have hXd : (dim, x) ∈ X.indices.dims := by subst hX; exact hDp.mem_iff.2 hd
  obtain ⟨s, s1, s0, s2, s3⟩ := reduceDimBins_eq (fun x y : K => x + y) 0 0 (fun _ => True) trivial (fun w _ => by simp)
    (fun _ _ _ => trivial) hXok hXd
  have hs0 : ∀ c, s.val c = 0 := by
    intro c
    rw [s3]
    generalize intRange 0 x = l
    induction l with
    | nil => rfl
    | cons j l ih => simpa [hX, EventArr.unmasked, intRange] using ih
  obtain ⟨C, hC⟩ : ∃ C : Arr Int, C = ⟨mk.arr.dims.filter (fun p => decide (p.1 ≠ dim)),
      fun c => (intRange 0 x).foldl (fun acc j => addBool acc (!mk.arr.val (upd c dim j))) 0⟩ := ⟨_, rfl⟩
  have hCred : reduceDim (fun acc m => addBool acc (!m)) 0 mk.arr dim = .ok C := by
    rw [hC]; exact reduceDim_eq _ _ m1 (at?_ok_mem hx)
  have hcount : ∀ (l : List Int) (g : Int → Bool) (a : Int), l.foldl (fun acc j => addBool acc (!g j)) a =
      a + ((l.filter (fun j => !g j)).length : Int) := by
    intro l g
    induction l with
    | nil => simp
    | cons j l ih =>
      intro a
      rw [List.foldl_cons, ih, List.filter_cons]
      cases g j <;> simp [addBool]
      omega
  have hCw : WF C.dims := by rw [hC]; exact sublist_WF List.filter_sublist m1.wf
  have hsw : WF s.dims := by rw [s2]; exact sublist_WF List.filter_sublist hXok.indices.wf
  have hsi : Dim.invalid ∉ labels s.dims := by rw [s2]; exact fun h => hXok.indices.valid (labels_filter_mem.1 h).1
  have hsub : ∀ p ∈ C.dims, p ∈ s.dims := by
    intro p hp
    rw [hC] at hp
    rw [s2, hX]
    obtain ⟨hp1, hp2⟩ := List.mem_filter.1 hp
    exact List.mem_filter.2 ⟨hDp.mem_iff.2 (m3 p hp1), hp2⟩
  have hmerge : Dims.merge s.dims C.dims = .ok s.dims := merge_of_includes hsw hCw hsi hsub
  have heq : meanImplBins .variable b masks dim = Arr.zip normalizeInt s C := by
    unfold meanImplBins
    rw [hu]
    simp only [hCred, whereZeroLike, m2.1, m2.2, hD, hall, Bool.not_true, Bool.false_eq_true, if_false, if_true, ← hX, s1]
  refine ⟨⟨s.dims, fun c => normalizeInt (s.val c) (C.val c)⟩, ?_, ?_, fun c => ?_⟩
  · rw [heq]
    simp only [Arr.zip, hmerge]
  · show s.dims.Perm _
    rw [s2, hX]
    exact hDp.filter _
  · simp only [normalizeInt, hs0, zero_mul]
    have hval : C.val c = (((intRange 0 x).filter (fun j => !mk.arr.val (upd c dim j))).length : Int) := by
      rw [hC]
      simpa using hcount (intRange 0 x) (fun j => mk.arr.val (upd c dim j)) 0
    have hiff : C.val c = 0 ↔ ∀ j, 0 ≤ j → j < x → maskedAlong masks dim (upd c dim j) = true := by
      rw [hval, Int.natCast_eq_zero, List.length_eq_zero_iff, List.filter_eq_nil_iff]
      constructor
      · intro h j h0 h1
        have := h j (mem_intRange.2 ⟨h0, h1⟩)
        rw [← m5]
        simpa using this
      · intro h j hj
        obtain ⟨h0, h1⟩ := mem_intRange.1 hj
        simp [m5, h j h0 h1]
    refine ⟨fun h => if_pos (hiff.2 h), fun ⟨j, h0, h1, h2⟩ => if_neg fun h => ?_⟩
    rw [hiff.1 h j h0 h1] at h2
    cases h2

end Mean

/-! ### All dims -/

section AllDims
variable {K : Type} [AddCommMonoid K]

/-- Summing over all elements, inner dim first. -/
theorem sum_split {ds : Dims} {d : Dim} {n : Int} (hw : WF (ds ++ [(d, n)])) (F : (Dim → Int) → K)
    (hF : ∀ c c' : Dim → Int, (∀ e ∈ labels (ds ++ [(d, n)]), c e = c' e) → F c = F c') :
    ∑ k ∈ Finset.range (Dims.volume (ds ++ [(d, n)])).toNat, F (coordsOf (ds ++ [(d, n)]) k) =
      ∑ k ∈ Finset.range (Dims.volume ds).toNat, ∑ j ∈ Finset.range n.toNat, F (upd (coordsOf ds k) d j) := by
  have hnd : d ∉ labels ds := by
    have := hw.1
    rw [labels_append] at this
    intro hc
    exact (List.nodup_append.1 this).2.2 d hc d (by simp) rfl
  have hn0 : 0 ≤ n := hw.2 (d, n) (by simp)
  have hdsw : WF ds := sublist_WF (List.sublist_append_left _ _) hw
  have hv0 : 0 ≤ Dims.volume ds := volume_nonneg hdsw.2
  have hvol : Dims.volume (ds ++ [(d, n)]) = Dims.volume ds * n := by simp [Dims.volume, List.foldl_append]
  rw [hvol, Int.toNat_mul hv0 hn0, sum_range_mul' _ n.toNat]
  refine Finset.sum_congr rfl (fun k hk => Finset.sum_congr rfl (fun j hj => ?_))
  have hk' := Finset.mem_range.1 hk
  have hj' := Finset.mem_range.1 hj
  have hin := coordsOf_inDims hdsw (k := (k : Int)) (by omega) (by omega)
  have hpk := position_coordsOf hdsw (k := (k : Int)) (by omega) (by omega)
  have hid : InDims (ds ++ [(d, n)]) (upd (coordsOf ds k) d j) := by
    intro e x hex
    rcases List.mem_append.1 hex with h | h
    · have : e ≠ d := by rintro rfl; exact hnd (mem_labels h)
      simp only [upd, this, if_false]
      exact hin e x h
    · simp only [List.mem_singleton, Prod.mk.injEq] at h
      obtain ⟨rfl, rfl⟩ := h
      simp only [upd, if_true]
      omega
  have hpos : position (ds ++ [(d, n)]) (upd (coordsOf ds k) d j) = ((k * n.toNat + j : Nat) : Int) := by
    rw [position_concat]
    have : position ds (upd (coordsOf ds k) d j) = position ds (coordsOf ds k) := by
      refine position_congr (fun e he => ?_)
      have : e ≠ d := by rintro rfl; exact hnd he
      simp [upd, this]
    rw [this, hpk]
    simp only [upd, if_true]
    push_cast
    rw [Int.toNat_of_nonneg hn0]
  refine hF _ _ (fun e he => ?_)
  rw [← hpos]
  exact coordsOf_position hw.1 hid e he

theorem foldl_op_sum {V : Type} (op : K → V → K) (g : V → K) (hop : ∀ a v, op a v = a + g v) : ∀ (l : List V) (a : K),
    l.foldl op a = a + (l.map g).sum
  | [], a => by simp
  | v :: l, a => by rw [List.foldl_cons, foldl_op_sum op g hop l, hop, List.map_cons, List.sum_cons, add_assoc]

theorem sum_flatMap_filter {V : Type} (g : V → K) (p : Nat → Bool) (f : Nat → List V) : ∀ N : Nat,
    ((((List.range N).filter (fun k => !p k)).flatMap f).map g).sum =
      ∑ k ∈ Finset.range N, if p k then 0 else ((f k).map g).sum
  | 0 => by simp
  | N + 1 => by
    rw [List.range_succ, List.filter_append, List.flatMap_append, List.map_append, List.sum_append, sum_flatMap_filter g p f N,
      Finset.sum_range_succ]
    congr 1
    by_cases h : p N = true <;> simp [h]

theorem sum_flatMap_filter_int {V : Type} (g : V → K) (p : Int → Bool) (f : Int → List V) (n : Int) :
    ((((intRange 0 n).filter (fun k => !p k)).flatMap f).map g).sum =
      ∑ k ∈ Finset.range n.toNat, if p k then 0 else ((f k).map g).sum := by
  rw [← sum_flatMap_filter g (fun k => p k) (fun k => f k)]
  unfold intRange
  simp only [Int.sub_zero, List.filter_map, List.flatMap_map, Int.zero_add]
  rfl

theorem sumArrayAll_eq {V : Type} (op : K → V → K) (g : V → K) (fill : V) (hop : ∀ a v, op a v = a + g v) (h0 : g fill = 0)
    {b : EventArr V} {n : Int} (hb : b.Ok n) {masks : List (Dim × MaskVar)} (hm : MasksFit masks b.indices.dims) :
    ∃ r, sumArrayAll op fill b masks = .ok r ∧ r.dims = [] ∧ ∀ c, r.val c = ((b.allUnmasked masks).map g).sum := by
  unfold sumArrayAll
  cases hl : b.indices.dims.getLast? with
  | none =>
    have hnil : b.indices.dims = [] := List.getLast?_eq_none_iff.1 hl
    have hmnil : ∀ p ∈ masks, p.2.arr.dims = [] := by
      intro p hp
      rw [List.eq_nil_iff_forall_not_mem]
      intro q hq
      have := (hm p hp).2.2 q hq
      rw [hnil] at this; simp at this
    have hirr : irreducibleMask masks Dim.invalid = .ok none := by
      unfold irreducibleMask
      clear hm
      induction masks with
      | nil => rfl
      | cons p l ih =>
        have : contains p.2.arr.dims Dim.invalid = false := by rw [hmnil p (by simp)]; rfl
        simp only [List.foldlM_cons, irreducibleStep, this, Bool.false_eq_true, if_false, bind, Except.bind]
        exact ih (fun q hq => hmnil q (by simp [hq]))
    obtain ⟨r, r1, r2, r3⟩ := reduceBins_eq op 0 fill (fun _ => True) trivial (fun w _ => by rw [hop, h0, add_zero])
      (fun _ _ _ => trivial) hb
    have : reduceImplBins op 0 fill b masks Dim.invalid = .ok r := by
      unfold reduceImplBins
      rw [hirr]
      simp only [reduceDimBins, if_true, r1]
    simp only [Option.map_none, Option.getD_none, this]
    rw [r2, hnil]
    refine ⟨r, rfl, by rw [r2, hnil], fun c => ?_⟩
    rw [r3, foldl_op_sum op g hop, zero_add]
    have hma : ∀ c, maskedAny masks c = false := by
      intro c
      simp only [maskedAny, List.any_eq_false]
      intro p hp
      simp [hmnil p hp]
    have hv : (Dims.volume ([] : Dims)).toNat = 1 := rfl
    simp only [EventArr.allUnmasked, hnil, hv, hma]
    simp only [List.range_one, List.filter_cons, Bool.not_false, if_true, List.filter_nil, List.flatMap_cons, List.flatMap_nil,
      List.append_nil]
    rw [unmasked_congr hb (c := c) (c' := coordsOf [] ((0 : Nat) : Int)) (by rw [hnil]; simp)]
  | some p =>
    obtain ⟨d, m⟩ := p
    obtain ⟨ds, hds⟩ := List.getLast?_eq_some_iff.1 hl
    have hdm : (d, m) ∈ b.indices.dims := by rw [hds]; simp
    have hw := hb.indices.wf
    have hnd : d ∉ labels ds := by
      have := hw.1
      rw [hds, labels_append] at this
      intro hc
      exact (List.nodup_append.1 this).2.2 d hc d (by simp) rfl
    have hdsw : WF ds := by rw [hds] at hw; exact sublist_WF (List.sublist_append_left _ _) hw
    have hfil : b.indices.dims.filter (fun p => decide (p.1 ≠ d)) = ds := by
      rw [hds, List.filter_append]
      simp only [List.filter_cons, ne_eq, not_true, decide_false, Bool.false_eq_true, if_false, List.filter_nil, List.append_nil]
      refine List.filter_eq_self.2 (fun q hq => ?_)
      simp only [decide_eq_true_eq]
      rintro rfl
      exact hnd (mem_labels (x := q.2) hq)
    obtain ⟨x, x1, x0, x2, x3⟩ := reduceImplBins_eq op 0 fill (fun _ => True) trivial (fun w _ => by rw [hop, h0, add_zero])
      (fun _ _ _ => trivial) hb hm hdm
    rw [hfil] at x2
    simp only [Option.map_some, Option.getD_some, x1]
    -- the dense array with values given by coordinates
    have hmok : ∀ p ∈ independentMasks masks d, p.2.arr.Ok ∧ p.2.Plain ∧ ∀ q ∈ p.2.arr.dims, q ∈ ds := by
      intro p hp
      simp only [independentMasks, List.mem_map, List.mem_filter, Bool.not_eq_true'] at hp
      obtain ⟨q, ⟨hq, hc⟩, rfl⟩ := hp
      obtain ⟨o1, o2, o3⟩ := hm q hq
      refine ⟨o1, ⟨o2.bool, o2.unit⟩, fun r hr => ?_⟩
      rw [← hfil]
      refine List.mem_filter.2 ⟨o3 r hr, ?_⟩
      simp only [decide_eq_true_eq]
      rintro rfl
      exact contains_false.1 hc (mem_labels (x := r.2) hr)
    have hxok : (⟨x, independentMasks masks d⟩ : MaskedArr K).Ok := ⟨x0, by rw [x2]; exact hmok⟩
    obtain ⟨r, r1, r2, r3⟩ := C38_sum_all _ hxok x.dims.length (le_refl _)
    rw [r1]
    refine ⟨r.data, rfl, r2, fun c => ?_⟩
    rw [r3]
    simp only [x2]
    have hmask : ∀ (c : Dim → Int) (j : Int), maskedAny masks (upd c d j) =
        (maskedAny (independentMasks masks d) c || maskedAlong masks d (upd c d j)) := by
      intro c j
      rw [Bool.eq_iff_iff]
      simp only [maskedAny, maskedAlong, independentMasks, List.any_map, Bool.or_eq_true, List.any_eq_true, Bool.and_eq_true,
        List.mem_filter, Bool.not_eq_true', Function.comp, MaskVar.copy]
      have hind : ∀ q ∈ masks, contains q.2.arr.dims d = false → q.2.arr.val (upd c d j) = q.2.arr.val c := by
        intro q hq hc
        refine (hm q hq).1.own _ _ (fun e he => ?_)
        have : e ≠ d := by rintro rfl; exact contains_false.1 hc he
        simp [upd, this]
      constructor
      · rintro ⟨q, hq, h1, h2⟩
        by_cases hc : contains q.2.arr.dims d = true
        · exact .inr ⟨q, hq, hc, h2⟩
        · rw [Bool.not_eq_true] at hc
          rw [hind q hq hc] at h2
          exact .inl ⟨q, ⟨hq, hc⟩, h1, h2⟩
      · rintro (⟨q, ⟨hq, hc⟩, h1, h2⟩ | ⟨q, hq, hc, h2⟩)
        · exact ⟨q, hq, h1, by rw [hind q hq hc]; exact h2⟩
        · refine ⟨q, hq, ?_, h2⟩
          have := contains_iff.1 hc
          cases hqd : q.2.arr.dims with
          | nil => rw [hqd] at this; simp at this
          | cons _ _ => rfl
    rw [EventArr.allUnmasked, sum_flatMap_filter]
    have hF := sum_split (by rw [hds] at hw; exact hw)
      (fun c => if maskedAny masks c then 0 else ((b.unmasked c).map g).sum) (fun c c' hcc => by
        rw [← hds] at hcc
        have e1 : maskedAny masks c = maskedAny masks c' := by
          have ho : ∀ p ∈ masks, p.2.arr.val c = p.2.arr.val c' := fun p hp =>
            (hm p hp).1.own c c' (fun e he => hcc e (labels_mono (hm p hp).2.2 e he))
          rw [Bool.eq_iff_iff]
          simp only [maskedAny, List.any_eq_true, Bool.and_eq_true]
          exact ⟨fun ⟨p, hp, h⟩ => ⟨p, hp, h.1, ho p hp ▸ h.2⟩, fun ⟨p, hp, h⟩ => ⟨p, hp, h.1, (ho p hp).symm ▸ h.2⟩⟩
        simp only [e1, unmasked_congr hb hcc])
    rw [← hds] at hF
    rw [hF]
    refine Finset.sum_congr rfl (fun k hk => ?_)
    have hk' := Finset.mem_range.1 hk
    have hin := coordsOf_inDims hdsw (k := (k : Int)) (by omega) (by omega)
    by_cases hma : maskedAny (independentMasks masks d) (coordsOf ds k) = true
    · rw [if_pos hma]
      refine (Finset.sum_eq_zero (fun j _ => ?_)).symm
      rw [hmask, hma]; simp
    · rw [if_neg hma, x3 _ (by rw [x2]; exact hin), foldl_op_sum op g hop, zero_add, EventArr.unmaskedAlong,
        sum_flatMap_filter_int]
      refine Finset.sum_congr rfl (fun j _ => ?_)
      rw [hmask]
      simp [hma]

theorem masksFit_nil (dims : Dims) : MasksFit [] dims := fun _ h => by simp at h

theorem sumAll_eq_array {V : Type} (op : K → V → K) (fill : V) (b : EventArr V) : sumAll b op fill = sumArrayAll op fill b [] := rfl

/-- **C69** (`sum` of binned data over all dims): the sum over all events which are not masked and not in a masked bin; a mask
without dims is not applied. -/
theorem C69_sum_all (b : EventArr K) (n : Int) (hb : b.Ok n) (masks : List (Dim × MaskVar)) (hm : MasksFit masks b.indices.dims) :
    ∃ r, sumArrayAll (· + ·) 0 b masks = .ok r ∧ r.dims = [] ∧ ∀ c, r.val c = (b.allUnmasked masks).sum := by
  obtain ⟨r, h1, h2, h3⟩ := sumArrayAll_eq (fun x y : K => x + y) id 0 (fun _ _ => rfl) rfl hb hm
  exact ⟨r, h1, h2, fun c => by rw [h3, List.map_id]⟩

end AllDims

section MeanAll
variable {K : Type} [Field K]

theorem map_addBool_sum : ∀ (l : List Bool), (l.map (fun m => if m then (1 : Int) else 0)).sum = ((l.filter id).length : Int)
  | [] => rfl
  | true :: l => by simp [map_addBool_sum l]; ring
  | false :: l => by simp [map_addBool_sum l]

theorem countAll_eq {V : Type} {b : EventArr V} {n : Int} (hb : b.Ok n) :
    ∃ r, countAll b = .ok r ∧ r.dims = [] ∧ ∀ c, r.val c = (b.allUnmasked []).length := by
  have hlen : ((b.allUnmasked []).length : Int) = ∑ k ∈ Finset.range (Dims.volume b.indices.dims).toNat,
      ((b.unmasked (coordsOf b.indices.dims k)).length : Int) := by
    have := sum_flatMap_filter (fun _ : V => (1 : Int)) (fun k : Nat => maskedAny [] (coordsOf b.indices.dims k))
      (fun k : Nat => b.unmasked (coordsOf b.indices.dims k)) (Dims.volume b.indices.dims).toNat
    simpa [EventArr.allUnmasked, maskedAny] using this
  unfold countAll
  rcases unmaskedEventsVar_eq hb with ⟨h1, h2⟩ | ⟨u, h1, h2, h3, h4⟩
  · rw [h1]
    simp only
    obtain ⟨r, r1, r2, r3⟩ := C38_sum_all (K := Int) ⟨Bins.binSizes b.indices, []⟩ ⟨Bins.binSizes_ok hb.indices, by simp⟩
      b.indices.dims.length (le_refl _)
    rw [r1]
    refine ⟨r.data, rfl, r2, fun c => ?_⟩
    rw [r3, hlen]
    refine Finset.sum_congr rfl (fun k hk => ?_)
    have hk' := Finset.mem_range.1 hk
    rw [unmasked_length hb h2 (coordsOf_inDims hb.indices.wf (by omega) (by omega))]
    simp [maskedAny, Bins.binSizes]
  · rw [h1]
    simp only [sumAll_eq_array]
    obtain ⟨r, r1, r2, r3⟩ := sumArrayAll_eq addBool (fun m => if m then 1 else 0) false (fun _ _ => rfl) rfl h2 (masksFit_nil _)
    refine ⟨r, r1, r2, fun c => ?_⟩
    rw [r3, hlen, EventArr.allUnmasked, sum_flatMap_filter, h3]
    refine Finset.sum_congr rfl (fun k _ => ?_)
    rw [h4, map_addBool_sum, inverted_count]
    simp [maskedAny]

theorem normalizeInt_mean' (l : List K) : normalizeInt l.sum (l.length : Int) = meanOf l := by
  rw [← normalizeInt_mean, foldl_add_eq_sum, zero_add]

/-- **C69** (`mean` of a binned variable over all dims): the mean of all events which are not masked. -/
theorem C69_mean_all (b : EventArr K) (n : Int) (hb : b.Ok n) :
    ∃ r, meanAll b = .ok r ∧ r.dims = [] ∧ ∀ c, r.val c = meanOf (b.allUnmasked []) := by
  obtain ⟨s, s1, s2, s3⟩ := C69_sum_all b n hb [] (masksFit_nil _)
  obtain ⟨r, r1, r2, r3⟩ := countAll_eq hb
  unfold meanAll
  rw [sumAll_eq_array, s1, r1]
  simp only [zip_same normalizeInt (a := s) (b := r) (by rw [s2]; simp [WF, labels]) (by rw [s2]; simp [labels]) (by rw [r2, s2])]
  exact ⟨_, rfl, s2, fun c => by simp only [s3, r3]; exact normalizeInt_mean' _⟩

theorem mapEvents_unmasked {V W : Type} (f : V → W) (b : EventArr V) (c : Dim → Int) :
    (mapEvents f b).unmasked c = (b.unmasked c).map f := by
  simp only [EventArr.unmasked, mapEvents, List.map_map]
  rfl

/-- **C69** (`mean` of binned data with masks of bins over all dims): the mean of all events which are not masked and not in a
masked bin, provided that they are finite. -/
theorem C69_mean_array_all (finite : K → Bool) (b : EventArr K) (n : Int) (hb : b.Ok n) (masks : List (Dim × MaskVar))
    (hm : MasksFit masks b.indices.dims) (hfin : ∀ v ∈ b.allUnmasked masks, finite v = true) :
    ∃ r, meanArrayAll finite b masks = .ok r ∧ r.dims = [] ∧ ∀ c, r.val c = meanOf (b.allUnmasked masks) := by
  obtain ⟨s, s1, s2, s3⟩ := C69_sum_all b n hb masks hm
  have hok : (mapEvents finite b).Ok n := by
    refine ⟨hb.indices, ⟨⟨hb.buffer.data.wf, hb.buffer.data.valid, fun c c' h => ?_⟩, hb.buffer.masks⟩, hb.size, hb.ranges⟩
    simp only [mapEvents]; rw [hb.buffer.data.own c c' h]
  obtain ⟨r, r1, r2, r3⟩ := sumArrayAll_eq addBool (fun m => if m then 1 else 0) false (fun _ _ => rfl) rfl hok (masks := masks) hm
  unfold meanArrayAll
  rw [s1, r1]
  simp only [zip_same normalizeInt (a := s) (b := r) (by rw [s2]; simp [WF, labels]) (by rw [s2]; simp [labels]) (by rw [r2, s2])]
  refine ⟨_, rfl, s2, fun c => ?_⟩
  simp only [s3, r3]
  have e : (mapEvents finite b).allUnmasked masks = (b.allUnmasked masks).map finite := by
    simp only [EventArr.allUnmasked, mapEvents_unmasked, List.map_flatMap]
    rfl
  have e2 : (b.allUnmasked masks).map finite = (b.allUnmasked masks).map (fun _ => true) := List.map_congr_left hfin
  rw [e, e2, List.map_map, ← normalizeInt_mean']
  congr 1
  simp [Function.comp_def]

end MeanAll

/-! ### Examples -/

/-- Events 10, 20, …, of which the second and the last are masked, in two bins (rows 3 to 5 and 0 to 2) out of order. -/
def sampleEvents : EventArr ℚ :=
  ⟨⟨[(2, 2)], fun c => if c 2 = 0 then (3, 6) else (0, 3)⟩, 9,
    ⟨⟨[(9, 6)], fun c => 10 * (c 9 + 1)⟩, [(7, maskOf 9 6 (fun k => k == 1 || k == 5))]⟩⟩

theorem sampleEvents_ok : sampleEvents.Ok 6 := by
  refine ⟨⟨by simp [sampleEvents, WF, labels], by simp [sampleEvents, labels, Dim.invalid], fun c c' h => ?_⟩,
    ⟨⟨by simp [sampleEvents, WF, labels], by simp [sampleEvents, labels, Dim.invalid], fun c c' h => ?_⟩, fun p hp => ?_⟩, rfl,
    fun c hc => ?_⟩
  · simp only [sampleEvents]; rw [h 2 (by simp [sampleEvents, labels])]
  · simp only [sampleEvents]; rw [h 9 (by simp [sampleEvents, labels])]
  · simp only [sampleEvents, List.mem_singleton] at hp
    subst hp
    exact ⟨maskOf_ok _ _ _ (by decide) (by decide), ⟨rfl, rfl⟩, by simp [maskOf, sampleEvents]⟩
  · simp only [sampleEvents]; split <;> decide

/-- A mask of the first bin. -/
def sampleBinMask : List (Dim × MaskVar) := [(5, maskOf 2 2 (· == 0))]

theorem sampleBinMask_fit : MasksFit sampleBinMask sampleEvents.indices.dims := by
  intro p hp
  simp only [sampleBinMask, List.mem_singleton] at hp
  subst hp
  exact ⟨maskOf_ok _ _ _ (by decide) (by decide), ⟨rfl, rfl⟩, by simp [maskOf, sampleEvents]⟩

/-- Values of a result at index 0 and 1. -/
def show2 {α : Type} (r : Except Err (Arr α)) : Option (List α) :=
  match r with
  | .ok a => some [a.val (fun _ => 0), a.val (fun _ => 1)]
  | .error _ => none

example : show2 (reduceBins (· + ·) 0 0 sampleEvents) = some [90, 40] ∧
    show2 (binsMean sampleEvents) = some [some 45, some 20] ∧
    show2 (reduceImplBins (· + ·) 0 0 sampleEvents [] 2) = some [130, 130] ∧
    show2 (reduceImplBins (· + ·) 0 0 sampleEvents sampleBinMask 2) = some [40, 40] ∧
    show2 (meanImplBins .dataArray sampleEvents [] 2) = some [some (65 / 2), some (65 / 2)] ∧
    show2 (meanArrayAll (fun _ => true) sampleEvents sampleBinMask) = some [some 20, some 20] ∧
    show2 (meanImplBins .dataArray sampleEvents sampleBinMask 2) = none := by decide +kernel

example := C69_sum (· + ·) 0 (by simp) sampleEvents 6 sampleEvents_ok
example := (C69_sum (· + ·) 0 (by simp) sampleEvents 6 sampleEvents_ok).2 sampleBinMask 2 2 sampleBinMask_fit (by simp [sampleEvents])
example := C69_nansum (· + ·) 0 (fun x => x == 30) (by simp) sampleEvents 6 sampleEvents_ok
example := C69_bins_mean sampleEvents 6 sampleEvents_ok
example := C69_mean_partial .dataArray sampleEvents 6 sampleEvents_ok [(5, { arr := ⟨[], fun _ => true⟩ })] 2 2 (by simp [sampleEvents])
  (by simp [labels])
example := C69_wrong_for_mean sampleEvents sampleBinMask 2 sampleBinMask_fit sampleEvents_ok.indices.wf
  ⟨_, List.mem_singleton.2 rfl, by simp [maskOf, labels]⟩ 2 (by simp [sampleEvents])
example := C69_sum_all sampleEvents 6 sampleEvents_ok sampleBinMask sampleBinMask_fit
example := C69_mean_all sampleEvents 6 sampleEvents_ok
example := C69_mean_array_all (fun _ => true) sampleEvents 6 sampleEvents_ok sampleBinMask sampleBinMask_fit (fun _ _ => rfl)

theorem mapEvents_ok {V W : Type} (f : V → W) {b : EventArr V} {n : Int} (hb : b.Ok n) : (mapEvents f b).Ok n := by
  refine ⟨hb.indices, ⟨⟨hb.buffer.data.wf, hb.buffer.data.valid, fun c c' h => ?_⟩, hb.buffer.masks⟩, hb.size, hb.ranges⟩
  simp only [mapEvents]; rw [hb.buffer.data.own c c' h]

example := C69_any (mapEvents (fun x => decide (x = 60)) sampleEvents) 6 (mapEvents_ok _ sampleEvents_ok)
example := C69_all (mapEvents (fun x => decide (x = 60)) sampleEvents) 6 (mapEvents_ok _ sampleEvents_ok)
example := C69_max (-1000 : ℚ) (mapEvents some sampleEvents) 6 (mapEvents_ok _ sampleEvents_ok)
example := C69_min (1000 : ℚ) (mapEvents some sampleEvents) 6 (mapEvents_ok _ sampleEvents_ok)
example : show2 (reduceBins (fun x y => x || y) false false (mapEvents (fun x => decide (x = 60)) sampleEvents)) = some [false, false] ∧
    show2 (reduceBins maxEquals (some (-1000)) (some (-1000)) (mapEvents some sampleEvents)) = some [some 50, some 30] := by
  decide +kernel

/-- Two empty bins. -/
def emptyEvents : EventArr ℚ := ⟨⟨[(2, 2)], fun _ => (0, 0)⟩, 9, ⟨⟨[(9, 0)], fun _ => 0⟩, []⟩⟩

/-- **C69** fails for `mean` with a mask of bins, `bin<Variable>`: an error unless all bins are empty, and then 0 instead of NaN,
since bins are counted instead of events. -/
theorem C69_wrong_for_empty : emptyEvents.Ok 0 ∧ emptyEvents.unmaskedAlong sampleBinMask 2 2 (fun _ => 0) = [] ∧
    show2 (meanImplBins .variable emptyEvents sampleBinMask 2) = some [some 0, some 0] ∧
    meanOf ([] : List ℚ) = none ∧
    show2 (meanImplBins .variable { sampleEvents with buffer := ⟨sampleEvents.buffer.data, []⟩ } sampleBinMask 2) = none := by
  refine ⟨⟨⟨by simp [emptyEvents, WF, labels], by simp [emptyEvents, labels, Dim.invalid], fun _ _ _ => rfl⟩,
    ⟨⟨by simp [emptyEvents, WF, labels], by simp [emptyEvents, labels, Dim.invalid], fun _ _ _ => rfl⟩, by simp [emptyEvents]⟩, rfl,
    fun _ _ => ⟨le_refl _, le_refl _, le_refl _⟩⟩, by decide +kernel, by decide +kernel, by decide +kernel, by decide +kernel⟩

example := C69_mean_no_events emptyEvents 0 C69_wrong_for_empty.1 sampleBinMask 2 2 (by decide) sampleBinMask_fit (by decide) (fun _ _ => rfl)
example := C69_wrong_for_variable sampleEvents 6 sampleEvents_ok sampleBinMask 2 sampleBinMask_fit (by decide)
  ⟨fun _ => 0, by simp [InDims, sampleEvents], by decide⟩

end Scipp.Props
