import Verif.Lemmas.GroupArray
import Verif.Props.Masks
import Mathlib.Algebra.BigOperators.Group.List.Basic
/-!
C95: reductions of grouped data arrays with any number of dims and masks.
-/
namespace Scipp.Props
open Scipp.Sizes Scipp.GroupArray
open Scipp.GroupBy (positions)

section
variable {V W : Type}

/-- **C95** (every reduction): the result for every group is the reduction, in order, of the unmasked elements of the group, whatever the dims of data
and masks. `P` describes the accumulated values; the fill value must not change them. Not for `bool` data and `ZeroNotBool` (see below). -/
theorem C95_reduce_partial (kind : Kind) (hk : (kind.boolData && kind.zeroNotBool) = false) (op : W → V → W) (init : W) (fill : V)
    (P : W → Prop) (hi : P init) (hfill : ∀ w, P w → op w fill = w) (hop : ∀ w v, P w → P (op w v)) (a : MaskedArr V) (ha : a.Ok)
    (dim key : Dim) (n : Int) (hd : (dim, n) ∈ a.data.dims) (hkey : KeyOk a dim key) (groups : List (List (Int × Int)))
    (hg : GroupsOk n groups) :
    GroupsTo a dim key groups (fun l => l.foldl op init) (groupReduce kind op init fill a dim key groups) := by
  obtain ⟨out, h1, h2, h3, h4⟩ := groupReduce_eq hk op init fill ha hd hkey hg
  refine ⟨out, h1, h2, fun c g ranges hgr hc => ?_, by rw [h3]; exact independentMasks_mem a.masks dim⟩
  rw [h4 c g ranges hgr hc]
  exact foldl_fill op fill P hfill hop (fun j => maskedAlong a.masks dim (upd c dim j)) (fun j => a.data.val (upd c dim j)) _ init hi

/-- **C95** (`sum`; data other than `bool`). -/
theorem C95_sum (add : V → V → V) (zero : V) (h0 : ∀ x, add x zero = x) (a : MaskedArr V) (ha : a.Ok) (dim key : Dim) (n : Int)
    (hd : (dim, n) ∈ a.data.dims) (hkey : KeyOk a dim key) (groups : List (List (Int × Int))) (hg : GroupsOk n groups) :
    GroupsTo a dim key groups (fun l => l.foldl add zero) (groupReduce { zeroNotBool := true } add zero zero a dim key groups) :=
  C95_reduce_partial _ rfl add zero zero (fun _ => True) trivial (fun w _ => h0 w) (fun _ _ _ => trivial) a ha dim key n hd hkey groups hg

/-- **C95** (`any`, `all`). -/
theorem C95_any (a : MaskedArr Bool) (ha : a.Ok) (dim key : Dim) (n : Int) (hd : (dim, n) ∈ a.data.dims) (hkey : KeyOk a dim key)
    (groups : List (List (Int × Int))) (hg : GroupsOk n groups) :
    GroupsTo a dim key groups (fun l => decide (true ∈ l))
      (groupReduce { boolData := true } (fun x y => x || y) false false a dim key groups) := by
  obtain ⟨out, h1, h2, h3, h4⟩ := C95_reduce_partial { boolData := true } rfl (fun x y => x || y) false false (fun _ => True) trivial
    (fun w _ => by simp) (fun _ _ _ => trivial) a ha dim key n hd hkey groups hg
  exact ⟨out, h1, h2, fun c g r hr hc => by rw [h3 c g r hr hc]; dsimp only; rw [foldl_any]; simp, h4⟩

@[inherit_doc C95_any]
theorem C95_all (a : MaskedArr Bool) (ha : a.Ok) (dim key : Dim) (n : Int) (hd : (dim, n) ∈ a.data.dims) (hkey : KeyOk a dim key)
    (groups : List (List (Int × Int))) (hg : GroupsOk n groups) :
    GroupsTo a dim key groups (fun l => decide (false ∉ l))
      (groupReduce { boolData := true } (fun x y => x && y) true true a dim key groups) := by
  obtain ⟨out, h1, h2, h3, h4⟩ := C95_reduce_partial { boolData := true } rfl (fun x y => x && y) true true (fun _ => True) trivial
    (fun w _ => by simp) (fun _ _ _ => trivial) a ha dim key n hd hkey groups hg
  exact ⟨out, h1, h2, fun c g r hr hc => by rw [h3 c g r hr hc]; dsimp only; rw [foldl_all]; simp, h4⟩

/-- **C95** (one group with everything): the same as reducing without grouping. -/
theorem C95_whole (kind : Kind) (hk : (kind.boolData && kind.zeroNotBool) = false) (op : W → V → W) (init : W) (fill : V)
    (P : W → Prop) (hi : P init) (hfill : ∀ w, P w → op w fill = w) (hop : ∀ w v, P w → P (op w v)) (a : MaskedArr V) (ha : a.Ok)
    (dim key : Dim) (n : Int) (hd : (dim, n) ∈ a.data.dims) (hkey : KeyOk a dim key) :
    ∃ out r, groupReduce kind op init fill a dim key [[(0, n)]] = .ok out ∧ reduceArray op init fill a dim = .ok r ∧
      ∀ c, c key = 0 → out.data.val c = r.data.val c := by
  have hn : 0 ≤ n := ha.data.wf.2 _ hd
  obtain ⟨out, h1, _, h3, _⟩ := C95_reduce_partial kind hk op init fill P hi hfill hop a ha dim key n hd hkey [[(0, n)]]
    (by simp [GroupsOk, hn])
  obtain ⟨r, g1, _, g3, _⟩ := reduceArray_to op init fill P hi hfill hop a ha dim n hd
  refine ⟨out, r, h1, g1, fun c hc => ?_⟩
  rw [h3 c 0 [(0, n)] rfl (by simpa using hc), g3 c]
  simp [unmaskedAt, unmaskedRow, positions]

/-- **C95** (conservation): if every position is in exactly one group, the sums of the groups add up to the sum of all unmasked elements. -/
theorem C95_conservation {K : Type} [AddCommMonoid K] (a : MaskedArr K) (ha : a.Ok) (dim key : Dim) (n : Int)
    (hd : (dim, n) ∈ a.data.dims) (hkey : KeyOk a dim key) (groups : List (List (Int × Int))) (hg : GroupsOk n groups)
    (hp : (groups.flatMap positions).Perm (intRange 0 n)) :
    ∃ out r, groupReduce { zeroNotBool := true } (· + ·) 0 0 a dim key groups = .ok out ∧ reduceArray (· + ·) 0 0 a dim = .ok r ∧
      ∀ c, ((List.range groups.length).map (fun g : Nat => out.data.val (upd c key g))).sum = r.data.val c := by
  obtain ⟨out, h1, _, h3, _⟩ := C95_sum (· + ·) (0 : K) (by simp) a ha dim key n hd hkey groups hg
  obtain ⟨r, g1, _, g3, _⟩ := C38_sum (· + ·) (0 : K) (by simp) a ha dim n hd
  refine ⟨out, r, h1, g1, fun c => ?_⟩
  rw [g3 c]
  -- the coordinate along the key does not matter for the data
  have hrow : ∀ (x : Int) (ps : List Int), unmaskedAt a dim ps (upd c key x) = unmaskedAt a dim ps c := by
    intro x ps
    have hv : ∀ {U : Type} (b : Arr U), b.Ok → (∀ d ∈ labels b.dims, d ∈ labels a.data.dims) → ∀ j,
        b.val (upd (upd c key x) dim j) = b.val (upd c dim j) := by
      intro U b hb hsub j
      refine hb.own _ _ (fun d hd' => ?_)
      unfold upd
      by_cases h : d = dim
      · simp [h]
      · rw [if_neg h, if_neg h]
        rcases hkey with hk | hk
        · rw [if_neg (by rw [hk]; exact h)]
        · rw [if_neg (fun he : d = key => hk (he ▸ hsub d hd'))]
    unfold unmaskedAt
    have hm : ∀ j, maskedAlong a.masks dim (upd (upd c key x) dim j) = maskedAlong a.masks dim (upd c dim j) := by
      intro j
      unfold maskedAlong
      rw [Bool.eq_iff_iff, List.any_eq_true, List.any_eq_true]
      refine exists_congr (fun p => and_congr_right (fun hp => ?_))
      obtain ⟨o1, _, o3⟩ := ha.masks p hp
      rw [hv p.2.arr o1 (fun d hd' => labels_mono o3 d hd') j]
    simp only [hm, hv a.data ha.data (fun d h => h)]
  have hsum : ∀ l : List K, l.foldl (· + ·) 0 = l.sum := fun l => by rw [foldl_add_eq_sum, zero_add]
  have hterm : (List.range groups.length).map (fun g : Nat => out.data.val (upd c key g)) =
      groups.map (fun ranges => (unmaskedAt a dim (positions ranges) c).sum) := by
    refine List.ext_getElem (by simp) (fun i hi hi' => ?_)
    simp only [List.length_map, List.length_range] at hi
    simp only [List.getElem_map, List.getElem_range]
    rw [h3 (upd c key i) i groups[i] (List.getElem?_eq_getElem hi) (by simp [upd]), hrow]
    exact hsum _
  rw [hterm]
  refine Eq.trans ?_ (hsum _).symm
  have hflat : ∀ gs : List (List (Int × Int)), (gs.map (fun ranges => (unmaskedAt a dim (positions ranges) c).sum)).sum =
      (unmaskedAt a dim (gs.flatMap positions) c).sum := by
    intro gs
    induction gs with
    | nil => simp [unmaskedAt]
    | cons g gs ih => rw [List.map_cons, List.sum_cons, ih]; simp [unmaskedAt, List.sum_append]
  rw [hflat]
  exact ((hp.filter _).map _).sum_eq

/-- The key must not be the name of another dim of the data. -/
theorem C95_key_clash (kind : Kind) (op : W → V → W) (init : W) (fill : V) (a : MaskedArr V) (dim key : Dim)
    (groups : List (List (Int × Int))) (hd : dim ∈ labels a.data.dims) (hk : key ≠ dim) (hl : key ∈ labels a.data.dims) :
    groupReduce kind op init fill a dim key groups = .error .dimension := by
  unfold groupReduce
  rw [if_neg (by simp [contains_iff.2 hd]), if_pos ⟨hk, contains_iff.2 hl⟩]

/-- **C95 is wrong for sums of `bool` data with a mask**: `GroupBy::sum` throws for every masked `bool` array (with a mask along the reduced dim and at
least one element), although the sum without a mask, or without `groupby`, counts the elements that are true. -/
theorem C95_wrong_bool (op : W → V → W) (init : W) (fill : V) (a : MaskedArr V) (ha : a.Ok) (dim key : Dim) (n : Int)
    (hd : (dim, n) ∈ a.data.dims) (hkey : KeyOk a dim key) (groups : List (List (Int × Int))) (hg : GroupsOk n groups)
    (hmask : ∃ p ∈ a.masks, dim ∈ labels p.2.arr.dims) (hne : ∃ g ∈ groups, g ≠ []) :
    groupReduce { boolData := true, zeroNotBool := true } op init fill a dim key groups = .error .dtype := by
  obtain ⟨u, hu, hu1, hu2⟩ := irreducible_loop ha.data.wf (dim := dim) a.masks none ha.masks (by simp)
  have hsome : ∃ m, u = some m := irreducible_some a.masks none hu hmask
  obtain ⟨m, rfl⟩ := hsome
  obtain ⟨m1, m2, m3, m4⟩ := hu1 m rfl
  have hmd : (dim, n) ∈ m.arr.dims := by
    obtain ⟨x, hx⟩ := at?_ok_of_mem_labels m4
    have hx := at?_ok_mem hx
    rwa [compatible_of_subset ha.data.wf (fun q hq => hq) dim x n (m3 _ hx) hd] at hx
  unfold groupReduce
  have hk' : ¬ (key ≠ dim ∧ contains a.data.dims key = true) := by
    rintro ⟨h1, h2⟩
    rcases hkey with h | h
    · exact h1 h
    · exact h (contains_iff.1 h2)
  have hirr : irreducibleMask a.masks dim = .ok (some m) := hu
  simp only [contains_iff.2 (mem_labels hd), Bool.not_true, Bool.false_eq_true, if_false, if_neg hk', hirr]
  have hfail : ∀ g ∈ groups, g ≠ [] → reduceGroup { boolData := true, zeroNotBool := true } op fill (some m) a.data dim
      ⟨a.data.dims.filter (fun p => decide (p.1 ≠ dim)), fun _ => init⟩ g = .error .dtype := by
    intro g hg' hn
    cases g with
    | nil => exact absurd rfl hn
    | cons r rs =>
      unfold reduceGroup
      rw [List.foldlM_cons]
      simp only [maskedSlice, (range_eq ha.data hd (hg _ hg' r (by simp))).1, (range_eq m1 hmd (hg _ hg' r (by simp))).1]
      rfl
  rw [mapM_error_of _ Err.dtype groups (fun g hg' => by
    by_cases hn : g = []
    · subst hn; exact .inl ⟨_, rfl⟩
    · exact .inr (hfail g hg' hn)) (by obtain ⟨g, hg', hn⟩ := hne; exact ⟨g, hg', hfail g hg' hn⟩)]

/-! ### mean -/

/-- **C95** (`mean`): the sum of the unmasked elements of the group divided by their number, NaN for a group without any. Only if the masks depend on no
dim but the reduced one, and if the data has a unit. -/
theorem C95_mean_partial {K : Type} [Field K] (a : MaskedArr K) (ha : a.Ok) (dim key : Dim) (n : Int) (hd : (dim, n) ∈ a.data.dims)
    (hkey : KeyOk a dim key) (groups : List (List (Int × Int))) (hg : GroupsOk n groups) (hm : MasksAlong a.masks dim) :
    GroupsTo a dim key groups (fun l => if l = [] then none else some (l.sum / (l.length : K))) (groupMean false a dim key groups) := by
  have hnorm : ∀ l : List K, normalize l.sum l.length = if l = [] then none else some (l.sum / (l.length : K)) := by
    intro l
    unfold normalize
    by_cases hl : l = []
    · simp [hl]
    · rw [if_neg hl, if_neg (by simpa using hl), div_eq_mul_inv]
  obtain ⟨u, hu, hu1, hu2⟩ := irreducible_loop ha.data.wf (dim := dim) a.masks none ha.masks (by simp)
  have hu2' : ∀ c, maskedBy u c = maskedAlong a.masks dim c := fun c => by rw [hu2 c]; simp [maskedBy]
  have hirr : irreducibleMask a.masks dim = .ok u := hu
  have hone : ∀ m, u = some m → ∀ d ∈ labels m.arr.dims, d = dim := irreducible_labels ha.data.wf a.masks none ha.masks (by simp) hu hm (by simp)
  obtain ⟨out, h1, h2, h3, h4⟩ := C95_reduce_partial {} rfl (· + ·) (0 : K) 0 (fun _ => True) trivial (by simp) (fun _ _ _ => trivial)
    a ha dim key n hd hkey groups hg
  obtain ⟨scales, es, fs⟩ := mapM_ok_of (fun ranges => ranges.foldlM (scaleStep u dim) 0)
    (fun ranges s => ∀ c, s = ((unmaskedAt a dim (positions ranges) c).length : Int)) groups (fun ranges hr => by
      obtain ⟨s, e, v⟩ := scale_eq ha hd hu1 hu2' hone ranges (hg ranges hr) 0
      exact ⟨s, e, fun c => by rw [v c]; simp⟩)
  unfold groupMean
  simp only [h1, hirr, scale, es, Bool.false_eq_true, if_false]
  refine ⟨_, rfl, h2, fun c g ranges hgr hcg => ?_, h4⟩
  obtain ⟨s, hs, hv⟩ := forall₂_at fs g ranges hgr
  simp only [h3 c g ranges hgr hcg, hcg, Int.toNat_natCast, hs, Option.getD_some, hv c]
  rw [← hnorm, foldl_add_eq_sum, zero_add]

/-- **C95 is wrong for `mean` with a mask depending on another dim**: it throws, although `sum` is fine. -/
theorem C95_wrong_mean {K : Type} [Field K] (unitNone : Bool) (a : MaskedArr K) (ha : a.Ok) (dim key : Dim) (n : Int)
    (hd : (dim, n) ∈ a.data.dims) (hkey : KeyOk a dim key) (groups : List (List (Int × Int))) (hg : GroupsOk n groups)
    (hne : ∃ g ∈ groups, g ≠ []) (hm : ∃ p ∈ a.masks, dim ∈ labels p.2.arr.dims ∧ ∃ d ∈ labels p.2.arr.dims, d ≠ dim) :
    groupMean unitNone a dim key groups = .error .dimension := by
  obtain ⟨u, hu, hu1, hu2⟩ := irreducible_loop ha.data.wf (dim := dim) a.masks none ha.masks (by simp)
  have hirr : irreducibleMask a.masks dim = .ok u := hu
  obtain ⟨out, h1, -⟩ := C95_reduce_partial {} rfl (· + ·) (0 : K) 0 (fun _ => True) trivial (by simp) (fun _ _ _ => trivial)
    a ha dim key n hd hkey groups hg
  obtain ⟨m, rfl, d, hdm, hdd⟩ := irreducible_other ha.data.wf a.masks none ha.masks (by simp) hu (.inl hm)
  obtain ⟨m1, m2, m3, m4⟩ := hu1 m rfl
  have hmd : (dim, n) ∈ m.arr.dims := by
    obtain ⟨x, hx⟩ := at?_ok_of_mem_labels m4
    have hx := at?_ok_mem hx
    rwa [compatible_of_subset ha.data.wf (fun q hq => hq) dim x n (m3 _ hx) hd] at hx
  have hfail : ∀ g ∈ groups, g ≠ [] → g.foldlM (scaleStep (some m) dim) 0 = .error .dimension := by
    intro g hg' hn
    cases g with
    | nil => exact absurd rfl hn
    | cons r rs =>
      rw [List.foldlM_cons]
      obtain ⟨e1, o1⟩ := range_eq m1 hmd (hg _ hg' r (by simp))
      have hmem : (dim, r.2 - r.1) ∈ rangeDims m.arr.dims dim (r.2 - r.1) := mem_rangeDims.2 (.inl ⟨rfl, rfl, m4⟩)
      have hnil : (rangeDims m.arr.dims dim (r.2 - r.1)).filter (fun p => decide (p.1 ≠ dim)) ≠ [] := by
        intro hc
        have : d ∈ labels ((rangeDims m.arr.dims dim (r.2 - r.1)).filter (fun p => decide (p.1 ≠ dim))) :=
          labels_filter_mem.2 ⟨by rw [labels_rangeDims]; exact hdm, hdd⟩
        rw [hc] at this; cases this
      simp only [scaleStep, e1, reduceDim_eq _ _ o1 hmem, if_neg hnil]
      rfl
  unfold groupMean
  simp only [h1, hirr, scale]
  rw [mapM_error_of _ Err.dimension groups (fun g hg' => by
    by_cases hn : g = []
    · subst hn; exact .inl ⟨_, rfl⟩
    · exact .inr (hfail g hg' hn)) (by obtain ⟨g, hg', hn⟩ := hne; exact ⟨g, hg', hfail g hg' hn⟩)]

/-- **C95 is wrong for `mean` of data without a unit**: it throws. -/
theorem C95_wrong_unit {K : Type} [Field K] (a : MaskedArr K) (ha : a.Ok) (dim key : Dim) (n : Int) (hd : (dim, n) ∈ a.data.dims)
    (hkey : KeyOk a dim key) (groups : List (List (Int × Int))) (hg : GroupsOk n groups) (hm : MasksAlong a.masks dim) :
    groupMean true a dim key groups = .error .unit := by
  obtain ⟨out, h, -⟩ := C95_mean_partial a ha dim key n hd hkey groups hg hm
  unfold groupMean at h ⊢
  split at h
  · cases h
  · split at h
    · cases h
    · split at h
      · cases h
      · simp_all

/-! ### The groups made by `groupby` -/

/-- **C95** (any key): the groups made from the values of a key are ranges of positions of the key. -/
theorem C95_groups {α : Type} [LinearOrder α] (hash : GroupBy.Key α → Nat) (sorter : GroupBy.KeySorter α) (values : List (GroupBy.Key α))
    (keys : List (GroupBy.Key α)) (groups : List (List (Int × Int))) (h : GroupBy.makeGroups hash sorter values = .ok (keys, groups)) :
    GroupsOk values.length groups := by
  unfold GroupBy.makeGroups at h
  simp only [bind, Except.bind] at h
  split at h
  · cases h
  · rename_i gs hgs
    cases h
    intro g hg r hr
    obtain ⟨k, -, hk⟩ := mapM_mem _ _ _ hgs g hg
    unfold GroupBy.GroupMap.at at hk
    split at hk
    · rename_i e he
      cases hk
      obtain ⟨p, hp, rfl⟩ := emplaced_ranges hash (GroupBy.runs values) [] (by simp) e (List.mem_of_find?_eq_some he) r hr
      exact runs_range values p hp
    · cases hk

/-- **C95** (bins of a key): likewise for groups made from bin edges. -/
theorem C95_bin_groups {α : Type} [LinearOrder α] (edges : List α) (values : List (Option α)) (groups : List (List (Int × Int)))
    (h : GroupBy.makeBinGroups edges values = .ok groups) : GroupsOk values.length groups := by
  unfold GroupBy.makeBinGroups at h
  split at h
  · cases h
  · split at h
    · cases h
    · cases h
      intro g hg r hr
      obtain ⟨k, -, rfl⟩ := List.mem_map.1 hg
      obtain ⟨p, hp, rfl⟩ := List.mem_map.1 hr
      have := binRuns_range edges values none 0 (by simp) (by simp) p (List.mem_of_mem_filter hp)
      simpa using this

/-- Two-dimensional data with a mask along the reduced dim 3 and a mask depending on both dims, for the examples. -/
def groupGrid (masks : List (Dim × MaskVar)) : MaskedArr ℚ :=
  ⟨⟨[(2, 2), (3, 3)], fun c => 10 * c 2 + c 3⟩, masks⟩

private def mask1 : Dim × MaskVar := (7, maskOf 3 3 (· == 1))
private def mask2 : Dim × MaskVar := (8, { arr := ⟨[(3, 3), (2, 2)], fun c => c 3 == 2 && c 2 == 1⟩ })

theorem mask1_ok : mask1.2.arr.Ok ∧ mask1.2.Plain ∧ ∀ q ∈ mask1.2.arr.dims, q ∈ [((2 : Dim), (2 : Int)), (3, 3)] := by
  refine ⟨⟨by simp [mask1, maskOf, Sizes.WF, labels], by simp [mask1, maskOf, labels, Dim.invalid], fun c c' h => ?_⟩, ⟨rfl, rfl⟩,
    by simp [mask1, maskOf]⟩
  have := h 3 (by simp [mask1, maskOf, labels]); simp only [mask1, maskOf]; rw [this]

theorem mask2_ok : mask2.2.arr.Ok ∧ mask2.2.Plain ∧ ∀ q ∈ mask2.2.arr.dims, q ∈ [((2 : Dim), (2 : Int)), (3, 3)] := by
  refine ⟨⟨by simp [mask2, Sizes.WF, labels], by simp [mask2, labels, Dim.invalid], fun c c' h => ?_⟩, ⟨rfl, rfl⟩, by simp [mask2]⟩
  have h3 := h 3 (by simp [mask2, labels])
  have h2 := h 2 (by simp [mask2, labels])
  simp only [mask2]; rw [h3, h2]

theorem groupGrid_ok (masks : List (Dim × MaskVar))
    (h : ∀ p ∈ masks, p.2.arr.Ok ∧ p.2.Plain ∧ ∀ q ∈ p.2.arr.dims, q ∈ [((2 : Dim), (2 : Int)), (3, 3)]) : (groupGrid masks).Ok := by
  refine ⟨⟨by simp [groupGrid, Sizes.WF, labels], by simp [groupGrid, labels, Dim.invalid], fun c c' h => ?_⟩, h⟩
  have h3 := h 3 (by simp [groupGrid, labels])
  have h2 := h 2 (by simp [groupGrid, labels])
  simp only [groupGrid]; rw [h3, h2]

private theorem grid12 : (groupGrid [mask1, mask2]).Ok := groupGrid_ok _ (by
  intro p hp
  simp only [List.mem_cons, List.not_mem_nil, or_false] at hp
  rcases hp with rfl | rfl
  · exact mask1_ok
  · exact mask2_ok)
private theorem grid1 : (groupGrid [mask1]).Ok := groupGrid_ok _ (by
  intro p hp
  simp only [List.mem_cons, List.not_mem_nil, or_false] at hp
  subst hp; exact mask1_ok)
private theorem mem3 (m : List (Dim × MaskVar)) : ((3 : Dim), (3 : Int)) ∈ (groupGrid m).data.dims := by simp [groupGrid]
private theorem key9 (m : List (Dim × MaskVar)) : KeyOk (groupGrid m) 3 9 := .inr (by simp [groupGrid, labels])
private theorem groups2 : GroupsOk 3 [[(0, 1), (2, 3)], [(1, 2)], []] := by unfold GroupsOk; decide

example := C95_reduce_partial {} rfl (· + ·) (0 : ℚ) 0 (fun _ => True) trivial (by simp) (by simp) (groupGrid [mask1, mask2]) grid12 3 9 3
  (mem3 _) (key9 _) _ groups2
example := C95_sum (· + ·) (0 : ℚ) (by simp) (groupGrid [mask1, mask2]) grid12 3 9 3 (mem3 _) (key9 _) _ groups2
example := C95_any (listArr [false, true, false] [false, true, false]) (listArr_ok _ _) 2 9 3 (List.mem_singleton.mpr rfl)
  (.inr (by simp [listArr, labels])) [[(0, 1), (2, 3)], [(1, 2)]] (by unfold GroupsOk; decide)
example := C95_all (listArr [true, false, true] [false, true, false]) (listArr_ok _ _) 2 9 3 (List.mem_singleton.mpr rfl)
  (.inr (by simp [listArr, labels])) [[(0, 1), (2, 3)], [(1, 2)]] (by unfold GroupsOk; decide)
example := C95_whole {} rfl (· + ·) (0 : ℚ) 0 (fun _ => True) trivial (by simp) (by simp) (groupGrid [mask1, mask2]) grid12 3 9 3
  (mem3 _) (key9 _)
example := C95_conservation (groupGrid [mask1, mask2]) grid12 3 9 3 (mem3 _) (key9 _) _ groups2 (by decide)
example := C95_key_clash {} (· + ·) (0 : ℚ) 0 (groupGrid [mask1]) 3 2 [[(0, 3)]] (by decide) (by decide) (by decide)
example := C95_wrong_bool (fun (n : Int) (b : Bool) => if b then n + 1 else n) 0 false (listArr [true, false, true] [false, true, false])
  (listArr_ok _ _) 2 9 3 (List.mem_singleton.mpr rfl) (.inr (by simp [listArr, labels])) [[(0, 1), (2, 3)], [(1, 2)]] (by unfold GroupsOk; decide)
  ⟨_, List.mem_singleton.mpr rfl, by simp [maskOf, labels]⟩ ⟨_, List.mem_cons_self, by simp⟩
-- without a mask the elements are counted
example : ((groupReduce { boolData := true, zeroNotBool := true } (fun (n : Int) (b : Bool) => if b then n + 1 else n) 0 false
    ⟨(listArr [true, false, true] []).data, []⟩ 2 9 [[(0, 1), (2, 3)], [(1, 2)]]).map (fun r => r.data.val (fun _ => 0))) = .ok 2 := by
  decide +kernel
example := C95_mean_partial (groupGrid [mask1]) grid1 3 9 3 (mem3 _) (key9 _) _ groups2 (by
  intro p hp hd d hd'
  simp only [groupGrid, List.mem_singleton] at hp
  subst hp
  simpa [mask1, maskOf, labels] using hd')
example : ((groupMean false (groupGrid [mask1]) 3 9 [[(0, 1), (2, 3)], [(1, 2)], []]).map
    (fun r => (r.data.dims, [0, 1, 2].map (fun g => r.data.val (fun d => if d = 9 then g else 1))))) =
    .ok ([(2, 2), (9, 3)], [some 11, none, none]) := by decide +kernel
example := C95_wrong_mean false (groupGrid [mask1, mask2]) grid12 3 9 3 (mem3 _) (key9 _) _ groups2 ⟨_, List.mem_cons_self, by simp⟩
  ⟨mask2, by simp [groupGrid], by simp [mask2, labels], 2, by simp [mask2, labels], by decide⟩
example := C95_wrong_unit (groupGrid [mask1]) grid1 3 9 3 (mem3 _) (key9 _) _ groups2 (by
  intro p hp hd d hd'
  simp only [groupGrid, List.mem_singleton] at hp
  subst hp
  simpa [mask1, maskOf, labels] using hd')
example := C95_groups (α := Int) (fun _ => 0) (fun lt l => l.insertionSort (fun a b => lt b a = false)) [.num 2, .num 1, .num 2]
  [.num 1, .num 2] [[(1, 2)], [(0, 1), (2, 3)]] (by decide)
example := C95_bin_groups [(0 : Int), 2, 4] [some 1, some 3, some 1] [[(0, 1), (2, 3)], [(1, 2)]] (by decide)

end

end Scipp.Props
