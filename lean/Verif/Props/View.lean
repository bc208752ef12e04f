import Verif.Lemmas.Flatten
import Verif.Lemmas.SliceCommute
/-!
# Properties of views: C03 – C08

A view is a labelled list of extents with strides, an offset and a read-only
flag. `View.addr v c` is the position in the buffer of the element at named
coordinates `c`; "same element" means "same address".
-/
namespace Scipp.Props
open Scipp Sizes

/-! ## C03 transpose -/

/-- **C03** (success): transposing to explicitly given labels succeeds exactly if they are a
permutation of the present ones. -/
theorem C03_transpose_succeeds_iff (v : View) (order : List Dim) (hw : v.WF)
    (hi : Dim.invalid ∉ labels v.dims) (ho : order ≠ []) :
    (∃ v', v.transpose order = .ok v') ↔ order.Perm (labels v.dims) := by
  have he : effOrder v.dims order = order := by simp [effOrder, ho]
  constructor
  · rintro ⟨v', h⟩
    obtain ⟨h1, h2, _⟩ := View.transpose_ok hw h
    rw [he] at h1
    rw [← h1]
    exact h2.map _
  · intro hp
    exact View.transpose_exists hw hi (by rw [he]; exact hp)

example := C03_transpose_succeeds_iff ⟨[(2, 3), (3, 2), (4, 2)], [8, 4, 2], 1, false⟩ [4, 2, 3] (by simp [View.WF, Sizes.WF])
  (by decide) (by decide)

/-- **C03** (default order): without labels the order is reversed. -/
theorem C03_transpose_default (v : View) (hw : v.WF) (hi : Dim.invalid ∉ labels v.dims) :
    ∃ v', v.transpose [] = .ok v' ∧ labels v'.dims = (labels v.dims).reverse := by
  obtain ⟨v', h⟩ := View.transpose_exists (order := []) hw hi (by simp [effOrder, List.reverse_perm])
  exact ⟨v', h, (View.transpose_ok hw h).1⟩

example := C03_transpose_default ⟨[(2, 3), (3, 2), (4, 2)], [8, 4, 2], 1, false⟩ (by simp [View.WF, Sizes.WF]) (by decide)

/-- **C03** (elements): the labels come in the requested order, every dimension keeps its
extent, and the element at any named coordinates is the same. -/
theorem C03_transpose_elements (v v' : View) (order : List Dim) (hw : v.WF)
    (h : v.transpose order = .ok v') :
    (order ≠ [] → labels v'.dims = order) ∧
    (∀ d n, (d, n) ∈ v'.dims ↔ (d, n) ∈ v.dims) ∧
    (∀ c, v'.addr c = v.addr c) ∧ v'.readonly = v.readonly := by
  obtain ⟨h1, h2, _, _, h5, _⟩ := View.transpose_ok hw h
  refine ⟨fun ho => by simpa [effOrder, ho] using h1, fun d n => h2.mem_iff,
    View.transpose_addr hw h, h5⟩

example := C03_transpose_elements ⟨[(2, 3), (3, 2), (4, 2)], [8, 4, 2], 1, false⟩
  ⟨[(4, 2), (2, 3), (3, 2)], [2, 8, 4], 1, false⟩ [4, 2, 3] (by simp [View.WF, Sizes.WF]) (by decide)

/-- **C03** (round trip): transposing back gives the original view. -/
theorem C03_transpose_back (v v' : View) (order : List Dim) (hw : v.WF)
    (h : v.transpose order = .ok v') : v'.transpose (labels v.dims) = .ok v := by
  obtain ⟨h1, h2, h3, h4, h5, h6, h7⟩ := View.transpose_ok hw h
  have hperm : (effOrder v'.dims (labels v.dims)).Perm (labels v'.dims) := by
    unfold effOrder
    split
    · exact List.reverse_perm _
    · exact (h2.map Prod.fst).symm
  have heff : effOrder v'.dims (labels v.dims) = labels v.dims := by
    unfold effOrder
    split
    · rename_i he
      have : v.dims = [] := by simpa [labels] using he
      rw [this] at h2
      have : v'.dims = [] := by simpa using h2
      simp [this, he]
    · rfl
  have hi : Dim.invalid ∉ labels v'.dims := by rw [h1]; exact h7
  obtain ⟨w, hw'⟩ := View.transpose_exists h6 hi hperm
  obtain ⟨g1, g2, g3, g4, g5, g6, _⟩ := View.transpose_ok h6 hw'
  rw [hw']
  rw [heff] at g1
  have hd : w.dims = v.dims := eq_of_perm_labels (g2.trans h2) g1 (by rw [g1]; exact hw.1.1)
  have hz := g3.trans h3
  have l1 : w.strides.length = (labels w.dims).length := by simp [g6.2.1]
  have l2 : v.strides.length = (labels v.dims).length := by simp [hw.2.1]
  have hz' := eq_of_perm_labels hz (by rw [labels_zip l1, labels_zip l2, g1]) (by
    rw [labels_zip l1, g1]; exact hw.1.1)
  have hs : w.strides = v.strides := by
    rw [← shape_zip l1, hz', shape_zip l2]
  cases w; cases v
  simp only [] at *
  subst hd hs
  simp [g4, h4, g5, h5]

example := C03_transpose_back ⟨[(2, 3), (3, 2), (4, 2)], [8, 4, 2], 1, false⟩ ⟨[(4, 2), (2, 3), (3, 2)], [2, 8, 4], 1, false⟩
  [4, 2, 3] (by simp [View.WF, Sizes.WF]) (by decide)

/-- Hypotheses of the C03 theorems are met by a sliced 3-d view. -/
example : View.WF ⟨[(2, 3), (3, 2), (4, 2)], [8, 4, 2], 1, false⟩ ∧
    View.transpose ⟨[(2, 3), (3, 2), (4, 2)], [8, 4, 2], 1, false⟩ [4, 2, 3] =
      .ok ⟨[(4, 2), (2, 3), (3, 2)], [2, 8, 4], 1, false⟩ := by
  simp [View.WF, Sizes.WF]; decide

example : View.transpose ⟨[(2, 3), (3, 2)], [2, 1], 0, false⟩ [2, 2] = .error .dimension := by decide

/-! ## C04 slicing -/

/-- **C04** (acceptance): a slice is accepted exactly if its dimension exists and the
selected positions are within the extent; otherwise a `SliceError` is thrown. -/
theorem C04_slice_accepts_iff (v : View) (p : Slice) (hw : v.WF) (hp : p.Constructed) :
    ((∃ v', v.slice p = .ok v') ↔
      ∃ n, (p.dim, n) ∈ v.dims ∧ if p.stop = -1 then p.start < n else p.stop ≤ n) ∧
    ∀ e, v.slice p = .error e → e = .slice := by
  obtain ⟨h0, hst, hse⟩ := hp.spec
  have hiff := validSlice_iff (s := v.dims) hp.ne_none hw.1.1
  have hok : validSlice v.dims p = .ok () → ∃ v', v.slice p = .ok v' := by
    intro hv
    obtain ⟨n, hm, hle⟩ := hiff.1 hv
    obtain ⟨pre, n', post, spre, x, spost, hv', h1, h2, h3⟩ := View.split hw.2.1 (mem_labels hm)
    have hn' : n' = n := by
      have := at?_of_mem hw.1.1 hm
      rw [hv'] at this
      simp only [at?_mid h1] at this
      injection this
    subst hn'
    obtain ⟨d, b, e, st⟩ := p
    simp only at h0 hst hse hle hv' h1
    rcases hse with hse | hse
    · subst hse
      rw [hv']
      exact ⟨_, View.slice_point_eq h1 h2 h0 (by simp at hle; omega)⟩
    · rw [hv']
      rw [if_neg (by omega)] at hle
      exact ⟨_, View.slice_range_eq h1 h2 h0 hse hst hle⟩
  refine ⟨?_, ?_⟩
  · constructor
    · rintro ⟨v', h⟩
      obtain ⟨n, hm, hle⟩ := hiff.1 (View.slice_ok_valid h)
      refine ⟨n, hm, ?_⟩
      rcases hse with hse | hse
      · rw [if_pos hse]; rw [if_pos (by omega)] at hle; omega
      · rw [if_neg (by omega)]; rw [if_neg (by omega)] at hle; exact hle
    · rintro ⟨n, hm, hle⟩
      apply hok
      apply hiff.2
      refine ⟨n, hm, ?_⟩
      rcases hse with hse | hse
      · rw [if_pos hse] at hle; rw [if_pos (by omega)]; omega
      · rw [if_neg (by omega)] at hle; rw [if_neg (by omega)]; exact hle
  · intro e he
    cases hv : validSlice v.dims p with
    | error e' =>
      have := validSlice_error hv
      simp only [View.slice, hv, bind, Except.bind] at he
      injection he with he
      rw [← he, this]
    | ok u =>
      obtain ⟨v', hv'⟩ := hok hv
      rw [hv'] at he; simp at he

example := C04_slice_accepts_iff ⟨[(3, 2), (2, 7)], [7, 1], 0, false⟩ ⟨2, 1, 6, 2⟩ (by simp [View.WF, Sizes.WF]) (.inl (by decide))

/-- **C04** (range): element `i` along the sliced dimension is element `begin + i*step` of
the input, other coordinates unchanged; the extent counts exactly these positions. -/
theorem C04_range_slice (v v' : View) (d : Dim) (b e st : Int) (hw : v.WF)
    (hp : Slice.Constructed ⟨d, b, e, st⟩) (hr : e ≠ -1) (h : v.slice ⟨d, b, e, st⟩ = .ok v') :
    labels v'.dims = labels v.dims ∧
    (∀ d' n, d' ≠ d → ((d', n) ∈ v'.dims ↔ (d', n) ∈ v.dims)) ∧
    (∃ n, (d, n) ∈ v'.dims ∧ ∀ i, 0 ≤ i → (i < n ↔ b + i * st < e)) ∧
    (∀ c, v'.addr c = v.addr (upd c d (b + c d * st))) ∧
    (∀ c, InDims v'.dims c → InDims v.dims (upd c d (b + c d * st))) := by
  obtain ⟨h0, hst, hse⟩ := hp.spec
  have hse : b ≤ e := hse.resolve_left hr
  simp only at h0 hst
  obtain ⟨n, hm, hle⟩ := (C04_slice_accepts_iff v _ hw hp).1.1 ⟨v', h⟩
  simp only [hr, if_false] at hm hle
  obtain ⟨pre, n', post, spre, x, spost, hv', h1, h2, h3⟩ := View.split hw.2.1 (mem_labels hm)
  have hn' : n' = n := by
    have := at?_of_mem hw.1.1 hm
    rw [hv'] at this
    simp only [at?_mid h1] at this
    injection this
  subst hn'
  have hnd : (labels (pre ++ (d, n') :: post)).Nodup := by have := hw.1.1; rw [hv'] at this; exact this
  obtain ⟨_, h4, _⟩ := nodup_mid hnd
  obtain ⟨hx0, hx⟩ := sliceExtent_spec hst hse
  rw [hv', View.slice_range_eq h1 h2 h0 hse hst hle] at h
  injection h with h
  subst h
  rw [hv']
  refine ⟨by simp, ?_, ⟨_, by simp, hx⟩, ?_, ?_⟩
  · intro d' m hd'
    simp only [List.mem_append, List.mem_cons, Prod.mk.injEq, hd', false_and, false_or]
  · intro c
    simp only [View.addr]
    rw [addrAux_mid h2, addrAux_mid h2, addrAux_upd h1, addrAux_upd h4, upd_same]
    ring
  · intro c hc d' m hm'
    by_cases hd' : d' = d
    · subst hd'
      have hmn : m = n' := by
        have := at?_of_mem hnd hm'
        rw [at?_mid h1] at this
        injection this with this; exact this.symm
      subst hmn
      obtain ⟨c0, c1⟩ := hc d' (sliceExtent b e st) (by simp)
      rw [upd_same]
      have := (hx _ c0).1 c1
      exact ⟨by nlinarith, by omega⟩
    · rw [upd_ne hd']
      apply hc d' m
      simp only [List.mem_append, List.mem_cons, Prod.mk.injEq, hd', false_and, false_or] at hm' ⊢
      exact hm'

example := C04_range_slice ⟨[(3, 2), (2, 7)], [7, 1], 0, false⟩ ⟨[(3, 2), (2, 3)], [7, 2], 1, false⟩ 2 1 6 2
  (by simp [View.WF, Sizes.WF]) (.inl (by decide)) (by decide) (by decide)

/-- **C04** (point): the sliced dimension disappears and its coordinate is fixed. -/
theorem C04_point_slice (v v' : View) (d : Dim) (b st : Int) (hw : v.WF)
    (hp : Slice.Constructed ⟨d, b, -1, st⟩) (h : v.slice ⟨d, b, -1, st⟩ = .ok v') :
    labels v'.dims = (labels v.dims).filter (· ≠ d) ∧
    (∀ d' n, (d', n) ∈ v'.dims ↔ (d', n) ∈ v.dims ∧ d' ≠ d) ∧
    (∀ c, v'.addr c = v.addr (upd c d b)) ∧
    (∀ c, InDims v'.dims c → InDims v.dims (upd c d b)) := by
  obtain ⟨h0, hst, _⟩ := hp.spec
  simp only at h0 hst
  obtain ⟨n, hm, hle⟩ := (C04_slice_accepts_iff v _ hw hp).1.1 ⟨v', h⟩
  simp only [if_true] at hm hle
  obtain ⟨pre, n', post, spre, x, spost, hv', h1, h2, h3⟩ := View.split hw.2.1 (mem_labels hm)
  have hnd : (labels (pre ++ (d, n') :: post)).Nodup := by have := hw.1.1; rw [hv'] at this; exact this
  have hn' : n' = n := by
    have := at?_of_mem hw.1.1 hm
    rw [hv'] at this
    simp only [at?_mid h1] at this
    injection this
  subst hn'
  obtain ⟨_, h4, _⟩ := nodup_mid hnd
  rw [hv', View.slice_point_eq h1 h2 h0 hle] at h
  injection h with h
  subst h
  rw [hv']
  have hfil : ∀ s : Dims, d ∉ labels s → (labels s).filter (· ≠ d) = labels s := by
    intro s hs
    rw [List.filter_eq_self]
    intro a ha
    simp only [ne_eq, decide_not, Bool.not_eq_eq_eq_not, Bool.not_true, decide_eq_false_iff_not]
    exact fun e => hs (e ▸ ha)
  refine ⟨?_, ?_, ?_, ?_⟩
  · simp only [labels_append, labels_cons, List.filter_append, List.filter_cons]
    rw [hfil pre h1, hfil post h4]; simp
  · intro d' m
    simp only [List.mem_append, List.mem_cons, Prod.mk.injEq]
    constructor
    · rintro (h | h)
      · exact ⟨.inl h, fun e => h1 (e ▸ mem_labels h)⟩
      · exact ⟨.inr (.inr h), fun e => h4 (e ▸ mem_labels h)⟩
    · rintro ⟨h | h | h, hne⟩
      · exact .inl h
      · exact absurd h.1 hne
      · exact .inr h
  · intro c
    simp only [View.addr]
    rw [addrAux_append h2, addrAux_mid h2, addrAux_upd h1, addrAux_upd h4, upd_same]
    ring
  · intro c hc d' m hm'
    by_cases hd' : d' = d
    · subst hd'
      have hmn : m = n' := by
        have := at?_of_mem hnd hm'
        rw [at?_mid h1] at this
        injection this with this; exact this.symm
      subst hmn
      rw [upd_same]; exact ⟨h0, hle⟩
    · rw [upd_ne hd']
      apply hc d' m
      simp only [List.mem_append, List.mem_cons, Prod.mk.injEq, hd', false_and, false_or] at hm' ⊢
      exact hm'

example := C04_point_slice ⟨[(3, 2), (2, 7)], [7, 1], 0, false⟩ ⟨[(3, 2)], [7], 6, false⟩ 2 6 1
  (by simp [View.WF, Sizes.WF]) (.inr (by decide)) (by decide)

/-- Hypotheses of the C04 theorems are met: `x[1:6:2]` of an extent-7 dimension selects
positions 1, 3, 5. -/
example : Slice.Constructed ⟨2, 1, 6, 2⟩ ∧ View.WF ⟨[(3, 2), (2, 7)], [7, 1], 0, false⟩ ∧
    View.slice ⟨[(3, 2), (2, 7)], [7, 1], 0, false⟩ ⟨2, 1, 6, 2⟩ =
      .ok ⟨[(3, 2), (2, 3)], [7, 2], 1, false⟩ := by
  refine ⟨.inl (by decide), ?_, by decide⟩
  simp [View.WF, Sizes.WF]

example : Slice.Constructed ⟨2, 6, -1, 1⟩ ∧
    View.slice ⟨[(3, 2), (2, 7)], [7, 1], 0, false⟩ ⟨2, 6, -1, 1⟩ =
      .ok ⟨[(3, 2)], [7], 6, false⟩ := by
  exact ⟨.inr (by decide), by decide⟩

example : View.slice ⟨[(2, 7)], [1], 0, false⟩ ⟨2, 3, 8, 1⟩ = .error .slice := by decide

/-! ## C05 composition of slices -/

/-- **C05** (same dimension): a non-empty range slice of a range slice is one range slice. -/
theorem C05_range_of_range (v v1 v2 : View) (d : Dim) (b1 e1 s1 b2 e2 s2 : Int) (hw : v.WF)
    (hp1 : Slice.Constructed ⟨d, b1, e1, s1⟩) (hr1 : e1 ≠ -1)
    (hp2 : Slice.Constructed ⟨d, b2, e2, s2⟩) (hr2 : e2 ≠ -1) (hne : b2 < e2)
    (h1 : v.slice ⟨d, b1, e1, s1⟩ = .ok v1) (h2 : v1.slice ⟨d, b2, e2, s2⟩ = .ok v2) :
    v.slice ⟨d, b1 + b2 * s1, min e1 (b1 + e2 * s1), s1 * s2⟩ = .ok v2 := by
  obtain ⟨a0, a1, a2⟩ := hp1.spec
  have a2 : b1 ≤ e1 := a2.resolve_left hr1
  obtain ⟨c0, c1, c2⟩ := hp2.spec
  have c2 : b2 ≤ e2 := c2.resolve_left hr2
  simp only at a0 a1 c0 c1
  obtain ⟨n, hm, hle⟩ := (C04_slice_accepts_iff v _ hw hp1).1.1 ⟨v1, h1⟩
  simp only [hr1, if_false] at hm hle
  obtain ⟨pre, n', post, spre, x, spost, hv', k1, k2, k3⟩ := View.split hw.2.1 (mem_labels hm)
  have hn' : n' = n := by
    have := at?_of_mem hw.1.1 hm
    rw [hv'] at this
    simp only [at?_mid k1] at this
    injection this
  subst hn'
  obtain ⟨hx0, hx⟩ := sliceExtent_spec a1 a2
  rw [hv', View.slice_range_eq k1 k2 a0 a2 a1 hle] at h1
  injection h1 with h1
  subst h1
  -- acceptance of the second slice
  have hle2 : e2 ≤ sliceExtent b1 e1 s1 := by
    have hv := View.slice_ok_valid h2
    have hne2 : (⟨d, b2, e2, s2⟩ : Slice) ≠ Slice.none := hp2.ne_none
    simp only [validSlice, hne2, if_false, at?_mid k1] at hv
    rw [show (if e2 < 0 then b2 + 1 else e2) = e2 by rw [if_neg]; omega] at hv
    by_contra hc
    rw [if_pos (by omega)] at hv
    simp at hv
  rw [View.slice_range_eq k1 k2 c0 c2 c1 hle2] at h2
  injection h2 with h2
  subst h2
  have hb : b1 + b2 * s1 < e1 := (hx b2 c0).1 (by omega)
  have hb2 : b2 * s1 < e2 * s1 := (mul_lt_mul_iff_left₀ a1).2 hne
  have hmin : b1 + b2 * s1 ≤ min e1 (b1 + e2 * s1) := le_min (by omega) (by omega)
  have hst : 0 < s1 * s2 := mul_pos a1 c1
  rw [hv', View.slice_range_eq k1 k2 (by nlinarith) hmin hst (le_trans (min_le_left _ _) hle)]
  obtain ⟨y0, hy⟩ := sliceExtent_spec c1 c2
  obtain ⟨z0, hz⟩ := sliceExtent_spec hst hmin
  have hext : sliceExtent (b1 + b2 * s1) (min e1 (b1 + e2 * s1)) (s1 * s2) = sliceExtent b2 e2 s2 := by
    have key : ∀ i, 0 ≤ i → (i < sliceExtent (b1 + b2 * s1) (min e1 (b1 + e2 * s1)) (s1 * s2) ↔
        i < sliceExtent b2 e2 s2) := by
      intro i hi
      rw [hz i hi, hy i hi, lt_min_iff]
      have e3 : b1 + b2 * s1 + i * (s1 * s2) = b1 + (b2 + i * s2) * s1 := by ring
      rw [e3]
      have hnn : 0 ≤ b2 + i * s2 := by nlinarith
      constructor
      · rintro ⟨_, h⟩
        have : (b2 + i * s2) * s1 < e2 * s1 := by omega
        exact (mul_lt_mul_iff_left₀ a1).1 this
      · intro h
        have h' : (b2 + i * s2) * s1 < e2 * s1 := (mul_lt_mul_iff_left₀ a1).2 h
        exact ⟨(hx _ hnn).1 (by omega), by omega⟩
    rcases lt_trichotomy (sliceExtent (b1 + b2 * s1) (min e1 (b1 + e2 * s1)) (s1 * s2))
      (sliceExtent b2 e2 s2) with h | h | h
    · exact absurd ((key _ z0).2 h) (by omega)
    · exact h
    · exact absurd ((key _ y0).1 h) (by omega)
  rw [hext]
  congr 1
  congr 1
  · congr 2; ring
  · ring

example := C05_range_of_range ⟨[(2, 10)], [1], 0, false⟩ ⟨[(2, 4)], [2], 1, false⟩ ⟨[(2, 2)], [4], 3, false⟩ 2 1 9 2 1 4 2
  (by simp [View.WF, Sizes.WF]) (.inl (by decide)) (by decide) (.inl (by decide)) (by decide) (by decide) (by decide) (by decide)

/-- **C05** (same dimension): a point of a range slice is a point. -/
theorem C05_point_of_range (v v1 v2 : View) (d : Dim) (b1 e1 s1 b2 : Int) (hw : v.WF)
    (hp1 : Slice.Constructed ⟨d, b1, e1, s1⟩) (hr1 : e1 ≠ -1)
    (hp2 : Slice.Constructed ⟨d, b2, -1, 1⟩)
    (h1 : v.slice ⟨d, b1, e1, s1⟩ = .ok v1) (h2 : v1.slice ⟨d, b2, -1, 1⟩ = .ok v2) :
    v.slice ⟨d, b1 + b2 * s1, -1, 1⟩ = .ok v2 := by
  obtain ⟨a0, a1, a2⟩ := hp1.spec
  have a2 : b1 ≤ e1 := a2.resolve_left hr1
  obtain ⟨c0, _, _⟩ := hp2.spec
  simp only at a0 a1 c0
  obtain ⟨n, hm, hle⟩ := (C04_slice_accepts_iff v _ hw hp1).1.1 ⟨v1, h1⟩
  simp only [hr1, if_false] at hm hle
  obtain ⟨pre, n', post, spre, x, spost, hv', k1, k2, k3⟩ := View.split hw.2.1 (mem_labels hm)
  have hn' : n' = n := by
    have := at?_of_mem hw.1.1 hm
    rw [hv'] at this
    simp only [at?_mid k1] at this
    injection this
  subst hn'
  obtain ⟨hx0, hx⟩ := sliceExtent_spec a1 a2
  rw [hv', View.slice_range_eq k1 k2 a0 a2 a1 hle] at h1
  injection h1 with h1
  subst h1
  have hle2 : b2 < sliceExtent b1 e1 s1 := by
    have hv := View.slice_ok_valid h2
    have hne2 : (⟨d, b2, -1, 1⟩ : Slice) ≠ Slice.none := hp2.ne_none
    simp only [validSlice, hne2, if_false, at?_mid k1] at hv
    by_contra hc
    rw [if_pos (by simp; omega)] at hv
    simp at hv
  rw [View.slice_point_eq k1 k2 c0 hle2] at h2
  injection h2 with h2
  subst h2
  have hb : b1 + b2 * s1 < e1 := (hx b2 c0).1 hle2
  rw [hv', View.slice_point_eq k1 k2 (by nlinarith) (by omega)]
  congr 2; ring

example := C05_point_of_range ⟨[(2, 10), (3, 2)], [2, 1], 0, false⟩ ⟨[(2, 4), (3, 2)], [4, 1], 2, false⟩
  ⟨[(3, 2)], [1], 14, false⟩ 2 1 9 2 3 (by simp [View.WF, Sizes.WF]) (.inl (by decide)) (by decide) (.inr (by decide))
  (by decide) (by decide)

example : Slice.Constructed ⟨2, 1, 9, 2⟩ ∧ Slice.Constructed ⟨2, 1, 4, 2⟩ ∧
    (View.slice ⟨[(2, 10)], [1], 0, false⟩ ⟨2, 1, 9, 2⟩ >>= (·.slice ⟨2, 1, 4, 2⟩)) =
      View.slice ⟨[(2, 10)], [1], 0, false⟩ ⟨2, 3, 9, 4⟩ ∧
    View.slice ⟨[(2, 10)], [1], 0, false⟩ ⟨2, 3, 9, 4⟩ = .ok ⟨[(2, 2)], [4], 3, false⟩ := by
  exact ⟨.inl (by decide), .inl (by decide), by decide, by decide⟩

/-- **C05** (different dimensions): slices along different dimensions commute; if one
order throws so does the other. -/
theorem C05_slices_commute (v : View) (p q : Slice) (hw : v.WF) (hp : p.Constructed)
    (hq : q.Constructed) (hd : p.dim ≠ q.dim) :
    (v.slice p >>= fun w => w.slice q) = (v.slice q >>= fun w => w.slice p) :=
  slice_comm hw hp hq hd

example := C05_slices_commute ⟨[(2, 10), (3, 4)], [4, 1], 0, false⟩ ⟨2, 1, 9, 2⟩ ⟨3, 2, -1, 1⟩ (by simp [View.WF, Sizes.WF])
  (.inl (by decide)) (.inr (by decide)) (by decide)

example : (View.slice ⟨[(2, 10), (3, 4)], [4, 1], 0, false⟩ ⟨2, 1, 9, 2⟩ >>= (·.slice ⟨3, 2, -1, 1⟩)) =
    .ok ⟨[(2, 4)], [8], 6, false⟩ ∧
    (View.slice ⟨[(2, 10), (3, 4)], [4, 1], 0, false⟩ ⟨3, 2, -1, 1⟩ >>= (·.slice ⟨2, 1, 9, 2⟩)) =
    .ok ⟨[(2, 4)], [8], 6, false⟩ := by decide

/-! ## C06 fold and flatten -/

/-- **C06** (fold, elements): the element of the folded view at any coordinates is the
element of the input at the row-major combination of the new coordinates; the new labels
replace the old one in place. -/
theorem C06_fold_elements (v v' : View) (d : Dim) (tgt : Dims) (hw : v.WF)
    (h : v.fold d tgt = .ok v') :
    (∃ pre n post, v.dims = pre ++ (d, n) :: post ∧ v'.dims = pre ++ tgt ++ post) ∧
    ∀ c, v'.addr c = v.addr (upd c d (position tgt c)) := by
  refine ⟨?_, View.fold_addr hw h⟩
  obtain ⟨pre, n, post, spre, x, spost, hv, _, _, _, _, hv', _⟩ := View.fold_ok hw h
  exact ⟨pre, n, post, by rw [hv], by rw [hv']⟩

example := C06_fold_elements ⟨[(2, 3), (3, 6)], [7, 1], 5, false⟩ ⟨[(2, 3), (4, 2), (5, 3)], [7, 3, 1], 5, false⟩ 3
  [(4, 2), (5, 3)] (by simp [View.WF, Sizes.WF]) (by decide)

/-- Fold is accepted exactly if the label exists, the result has unique labels and the
*total* volume is unchanged. -/
theorem C06_fold_succeeds_iff (v : View) (d : Dim) (tgt : Dims) (hw : v.WF) (ht : Sizes.WF tgt)
    (hvi : Dim.invalid ∉ labels v.dims) (hti : Dim.invalid ∉ labels tgt) :
    (∃ v', v.fold d tgt = .ok v') ↔
      ∃ pre n post, v.dims = pre ++ (d, n) :: post ∧ (labels (pre ++ tgt ++ post)).Nodup ∧
        Dims.volume (pre ++ (d, n) :: post) = Dims.volume (pre ++ tgt ++ post) := by
  constructor
  · rintro ⟨v', h⟩
    obtain ⟨pre, n, post, spre, x, spost, hv, h1, h2, _, _, hv', hvol, hwf⟩ := View.fold_ok hw h
    have hvd : v.dims = pre ++ (d, n) :: post := by rw [hv]
    refine ⟨pre, n, post, hvd, hwf.1, ?_⟩
    rw [← hvd, hvol, hv']
  · rintro ⟨pre, n, post, hvd, hn, hvol⟩
    obtain ⟨h1, h2, _⟩ := nodup_mid (by have := hw.1.1; rw [hvd] at this; exact this)
    have hf : Dims.fold v.dims d tgt = .ok (pre ++ tgt ++ post) := by
      have hc : Sizes.contains v.dims d = true := contains_iff.2 (by rw [hvd]; simp)
      have hfo := foldOuter_eq d tgt ht.2 hti v.dims [] (by
        rw [List.nil_append, hvd, flatMap_mid h1 h2]; exact hn) hw.1.2 hvi
      rw [Dims.fold, if_neg (by simp [hc])]
      simp only [bind, Except.bind]
      rw [hfo, hvd, flatMap_mid h1 h2]
      simp only [List.nil_append]
      rw [if_neg (by rw [hvol]; simp)]
    exact ⟨_, by simp only [View.fold, hf, bind, Except.bind]; rfl⟩

example := C06_fold_succeeds_iff ⟨[(2, 3), (3, 6)], [7, 1], 5, false⟩ 3 [(4, 2), (5, 3)] (by simp [View.WF, Sizes.WF])
  (by simp [Sizes.WF]) (by decide) (by decide)

/-- **C06** (fold, extents), partial: if all other extents are non-zero, folding succeeds
only if the product of the new extents is the old extent. The full statement drops the
hypothesis; it is false, see `C06_fold_extent_not_checked`. -/
theorem C06_fold_extents_partial (v v' : View) (d : Dim) (tgt : Dims) (hw : v.WF)
    (h : v.fold d tgt = .ok v') (hne : ∀ e n, (e, n) ∈ v.dims → e ≠ d → n ≠ 0) :
    (d, Dims.volume tgt) ∈ v.dims := by
  obtain ⟨pre, n, post, spre, x, spost, hv, h1, h2, _, _, hv', hvol, _⟩ := View.fold_ok hw h
  have hvd : v.dims = pre ++ (d, n) :: post := by rw [hv]
  have nz : ∀ s : Dims, (∀ p ∈ s, p.2 ≠ 0) → Dims.volume s ≠ 0 := by
    intro s
    induction s with
    | nil => simp
    | cons p s ih =>
      intro h
      rw [volume_cons]
      exact mul_ne_zero (h p (by simp)) (ih (fun q hq => h q (List.mem_cons_of_mem _ hq)))
  have z1 := nz pre (fun p hp => hne p.1 p.2 (by rw [hvd]; simp [hp])
    (fun e => h1 (e ▸ mem_labels (x := p.2) hp)))
  have z2 := nz post (fun p hp => hne p.1 p.2 (by rw [hvd]; simp [hp])
    (fun e => h2 (e ▸ mem_labels (x := p.2) hp)))
  rw [hvd, hv'] at hvol
  simp only [volume_append, volume_cons] at hvol
  have e : Dims.volume pre * Dims.volume post * n = Dims.volume pre * Dims.volume post * Dims.volume tgt := by
    rw [show Dims.volume pre * Dims.volume post * n = Dims.volume pre * (n * Dims.volume post) by ring, hvol]
    ring
  have := mul_left_cancel₀ (mul_ne_zero z1 z2) e
  rw [hvd, ← this]; simp

example := C06_fold_extents_partial ⟨[(2, 3), (3, 6)], [7, 1], 5, false⟩ ⟨[(2, 3), (4, 2), (5, 3)], [7, 3, 1], 5, false⟩ 3
  [(4, 2), (5, 3)] (by simp [View.WF, Sizes.WF]) (by decide) (by simp; omega)

/-- The code compares total volumes only: with another dimension of extent 0, folding
`x:4` into `3 × 2` is accepted. -/
theorem C06_fold_extent_not_checked : ∃ (v v' : View) (d : Dim) (tgt : Dims), v.WF ∧ Sizes.WF tgt ∧
    v.fold d tgt = .ok v' ∧ (d, Dims.volume tgt) ∉ v.dims := by
  refine ⟨⟨[(2, 0), (3, 4)], [4, 1], 0, false⟩, ⟨[(2, 0), (5, 3), (6, 2)], [4, 2, 1], 0, false⟩, 3,
    [(5, 3), (6, 2)], ?_, ?_, by decide, by decide⟩
  · simp [View.WF, Sizes.WF]
  · simp [Sizes.WF]

example : View.fold ⟨[(2, 3), (3, 6)], [7, 1], 5, false⟩ 3 [(4, 2), (5, 3)] =
    .ok ⟨[(2, 3), (4, 2), (5, 3)], [7, 3, 1], 5, false⟩ := by decide

/-- A copy has the same elements at the same coordinates, in a contiguous buffer. -/
theorem C06_copy_elements {α : Type} (x : Var α) (hw : x.view.WF) (c : Dim → Int)
    (hc : InDims x.view.dims c) : x.copy.elem c = x.elem c := by
  simp only [Var.elem, Var.copy, fresh_addr]
  congr 1
  simp only [View.addr]
  rw [addrAux_congr (coordsOf_position hw.1.1 hc)]

example := C06_copy_elements (α := Int) ⟨⟨[(4, 2), (5, 3)], [1, 2], 0, false⟩, fun i => 10 * i⟩ (by simp [View.WF, Sizes.WF])
  (fun _ => 1) (by simp [InDims]; omega)

/-- **C06** (flatten, success): flattening at least one dimension succeeds exactly if
`labels` are a contiguous group of the dimensions, in order, and the new label does not
clash with a remaining one. The recursion on a copy ends after one step. -/
theorem C06_flatten_succeeds_iff {α : Type} (x : Var α) (ls : List Dim) (toDim : Dim)
    (hw : x.view.WF) (hne : ls ≠ []) :
    (∃ y, x.flatten ls toDim = .ok y) ↔
      ((∃ a b, labels x.view.dims = a ++ ls ++ b) ∧ (toDim ∈ labels x.view.dims → toDim ∈ ls)) := by
  constructor
  · rintro ⟨y, h⟩
    have main : ∀ w : View, w.WF → ∀ r, w.flatten? ls toDim = .ok (some r) →
        (∃ a b, labels w.dims = a ++ ls ++ b) ∧ (toDim ∈ labels w.dims → toDim ∈ ls) := by
      intro w hw r hr
      obtain ⟨pre, mid, post, spre, smid, spost, hv, h1, _, _, _, h5, _⟩ := View.flatten?_spec hw hne _ hr
      obtain ⟨h6, h7, _⟩ := h5 _ rfl
      have hwd : w.dims = pre ++ mid ++ post := by rw [hv]
      rw [hwd]
      refine ⟨⟨labels pre, labels post, by simp [h1]⟩, ?_⟩
      intro e
      simp only [labels_append, List.mem_append] at e
      rcases e with (e | e) | e
      · exact absurd e h6
      · exact h1 ▸ e
      · exact absurd e h7
    simp only [Var.flatten, bind, Except.bind] at h
    split at h
    · simp at h
    rename_i r hr
    cases r with
    | some v => exact main _ hw v hr
    | none =>
      simp only at h
      split at h
      · simp at h
      rename_i r' hr'
      cases r' with
      | none => simp at h
      | some v => exact main x.copy.view (fresh_WF hw.1) v hr'
  · rintro ⟨⟨a, b, hab⟩, hto⟩
    have good : ∀ w : View, w.WF → w.dims = x.view.dims → ∃ r, w.flatten? ls toDim = .ok r := by
      intro w hw hd
      rcases View.flatten_cases hw hne with hc | ⟨pre, mid, post, spre, smid, spost, hv, h1, h2, h3, h4, h5⟩
      · exact absurd ⟨a, b, hd ▸ hab⟩ (hc toDim).2
      · have hwd := hw.1
        have hmid : mid ≠ [] := by rintro rfl; simp at h1; exact hne h1
        have hsm : smid ≠ [] := by rintro rfl; simp at h3; exact hmid (by simpa using h3.symm)
        rw [h5 toDim, ← h1]
        have hd' : w.dims = pre ++ mid ++ post := by rw [hv]
        rw [hv] at hwd ⊢
        obtain ⟨i1, i2⟩ := flattenLoop_spec toDim pre post spre spost w.offset w.readonly h2 mid smid 1 hsm h3
          (by omega) hwd (by rw [← hd', hd, h1]; exact hto)
        by_cases hC : Contig mid smid
        · exact ⟨_, i1 hC⟩
        · exact ⟨_, i2 hC⟩
    obtain ⟨r, hr⟩ := good x.view hw rfl
    cases r with
    | some v => exact ⟨⟨v, x.buf⟩, by simp [Var.flatten, hr, bind, Except.bind]⟩
    | none =>
      obtain ⟨r', hr'⟩ := good x.copy.view (fresh_WF hw.1) rfl
      cases r' with
      | some v => exact ⟨⟨v, x.copy.buf⟩, by simp [Var.flatten, hr, hr', bind, Except.bind]⟩
      | none =>
        -- a contiguous view never needs a copy
        exfalso
        obtain ⟨pre, mid, post, spre, smid, spost, hv, h1, h2, h3, h4, _, h6⟩ :=
          View.flatten?_spec (fresh_WF hw.1) hne _ hr'
        apply h6 rfl
        have hd : x.view.dims = pre ++ mid ++ post := by
          have := congrArg View.dims hv; exact this
        have hs : rowMajor (shape x.view.dims) = spre ++ smid ++ spost := by
          have := congrArg View.strides hv; exact this
        rw [hd, rowMajor_append, rowMajor_append, List.map_append] at hs
        have e1 := List.append_inj_left hs (by simp [h2, h3])
        have e2 := List.append_inj_right e1 (by simp [h2])
        rw [← e2]
        exact contig_rowMajor mid _

example := C06_flatten_succeeds_iff (α := Int) ⟨⟨[(4, 2), (5, 3)], [1, 2], 0, false⟩, fun i => 10 * i⟩ [4, 5] 3
  (by simp [View.WF, Sizes.WF]) (by decide)

/-- **C06** (flatten, elements): whether or not a copy is made, the new dimension
enumerates the flattened ones in row-major order. -/
theorem C06_flatten_elements {α : Type} (x y : Var α) (ls : List Dim) (toDim : Dim)
    (hw : x.view.WF) (hne : ls ≠ []) (h : x.flatten ls toDim = .ok y) :
    ∃ pre mid post, x.view.dims = pre ++ mid ++ post ∧ labels mid = ls ∧
      y.view.dims = pre ++ (toDim, Dims.volume mid) :: post ∧
      ∀ c, InDims x.view.dims c → y.elem (upd c toDim (position mid c)) = x.elem c := by
  have main : ∀ w r : View, w.WF → w.flatten? ls toDim = .ok (some r) →
      ∃ pre mid post, w.dims = pre ++ mid ++ post ∧ labels mid = ls ∧
        r.dims = pre ++ (toDim, Dims.volume mid) :: post ∧
        ∀ c, r.addr (upd c toDim (position mid c)) = w.addr c := by
    intro w r hw hr
    obtain ⟨pre, mid, post, spre, smid, spost, hv, h1, h2, h3, h4, h5, _⟩ := View.flatten?_spec hw hne _ hr
    obtain ⟨h6, h7, h8, h9, h10⟩ := h5 _ rfl
    refine ⟨pre, mid, post, by rw [hv], h1, by rw [h10], ?_⟩
    intro c
    rw [h10, hv]
    simp only [View.addr]
    rw [addrAux_mid h2, addrAux_append (s1 := pre ++ mid) (by simp [h2, h3]), addrAux_append h2, addrAux_upd h6,
      addrAux_upd h7, upd_same, contig_addr h9 h3 h8]
    ring
  simp only [Var.flatten, bind, Except.bind] at h
  split at h
  · simp at h
  rename_i r hr
  cases r with
  | some v =>
    simp only at h
    injection h with h
    subst h
    obtain ⟨pre, mid, post, g1, g2, g3, g4⟩ := main _ v hw hr
    exact ⟨pre, mid, post, g1, g2, g3, fun c _ => by simp only [Var.elem, g4]⟩
  | none =>
    simp only at h
    split at h
    · simp at h
    rename_i r' hr'
    cases r' with
    | none => simp at h
    | some v =>
      simp only at h
      injection h with h
      subst h
      obtain ⟨pre, mid, post, g1, g2, g3, g4⟩ := main x.copy.view v (fresh_WF hw.1) hr'
      refine ⟨pre, mid, post, g1, g2, g3, fun c hc => ?_⟩
      rw [← C06_copy_elements x hw c hc]
      simp only [Var.elem, g4]

/-- Flattening a transposed array, which has to be copied. -/
example : ∃ y, Var.flatten (α := Int) ⟨⟨[(4, 2), (5, 3)], [1, 2], 0, false⟩, fun i => 10 * i⟩ [4, 5] 3 = .ok y ∧
    (List.range 6).map (fun k => y.elem (fun _ => k)) = [0, 20, 40, 10, 30, 50] := ⟨_, rfl, by decide⟩

/-- **C06** (round trip): flattening the dimensions just created by a fold needs no copy
and restores the view, if the fold was one with matching extents
(see `C06_fold_extents_partial`). -/
theorem C06_flatten_fold (v v' : View) (d : Dim) (tgt : Dims) (hw : v.WF) (hne : tgt ≠ [])
    (h : v.fold d tgt = .ok v') (hx : (d, Dims.volume tgt) ∈ v.dims) :
    v'.flatten? (labels tgt) d = .ok (some v) := by
  obtain ⟨pre, n, post, spre, x, spost, hv, h1, h2, h3, h4, hv', hvol, hwf⟩ := View.fold_ok hw h
  have hn : n = Dims.volume tgt := by
    have := at?_of_mem hw.1.1 hx
    rw [hv] at this
    simp only [at?_mid h1] at this
    injection this
  have hv'w : v'.WF := by
    refine ⟨by rw [hv']; exact hwf, by rw [hv']; simp [h3, h4], ?_⟩
    rw [hv']
    intro s hs
    have hxx : 0 ≤ x := hw.2.2 x (by rw [hv]; simp)
    have htn : ∀ p ∈ tgt, 0 ≤ p.2 := fun p hp => hwf.2 p (by simp [hp])
    simp only [List.mem_append, List.mem_map] at hs
    rcases hs with (hs | ⟨y, hy, rfl⟩) | hs
    · exact hw.2.2 s (by rw [hv]; simp [hs])
    · exact mul_nonneg hxx (rowMajor_nonneg htn y hy)
    · exact hw.2.2 s (by rw [hv]; simp [hs])
  have hne' : labels tgt ≠ [] := by simpa [labels] using hne
  rcases View.flatten_cases hv'w hne' with hc | ⟨pre', mid, post', spre', smid, spost', hvv, g1, g2, g3, g4, g5⟩
  · exact absurd ⟨labels pre, labels post, by rw [hv']; simp⟩ (hc d).2
  · -- the group is found where it was put, because labels are unique
    have hde : pre ++ tgt ++ post = pre' ++ mid ++ post' := by
      have := congrArg View.dims hvv; rw [hv'] at this; exact this
    have hlen : pre.length = pre'.length := by
      obtain ⟨t, ts, rfl⟩ : ∃ t ts, tgt = t :: ts := by
        cases tgt with
        | nil => exact absurd rfl hne
        | cons t ts => exact ⟨t, ts, rfl⟩
      obtain ⟨m, ms, rfl⟩ : ∃ t ts, mid = t :: ts := by
        cases mid with
        | nil => simp at g1
        | cons t ts => exact ⟨t, ts, rfl⟩
      have hl : labels pre ++ t.1 :: (labels ts ++ labels post) =
          labels pre' ++ t.1 :: (labels ts ++ labels post') := by
        have := congrArg labels hde
        simp only [labels_append, labels_cons, List.cons_append, List.append_assoc] at this
        simp only [labels_cons, List.cons.injEq] at g1
        rw [this, g1.1, g1.2]
      have hnd : (labels pre ++ t.1 :: (labels ts ++ labels post)).Nodup := by
        have := hwf.1; simpa using this
      have hnd' : (labels pre' ++ t.1 :: (labels ts ++ labels post')).Nodup := hl ▸ hnd
      have u1 : (labels pre ++ t.1 :: (labels ts ++ labels post)).idxOf t.1 = (labels pre).length := by
        rw [List.idxOf_append_of_notMem (fun e => (List.nodup_append.1 hnd).2.2 _ e _ (by simp) rfl)]
        simp
      have u2 : (labels pre' ++ t.1 :: (labels ts ++ labels post')).idxOf t.1 = (labels pre').length := by
        rw [List.idxOf_append_of_notMem (fun e => (List.nodup_append.1 hnd').2.2 _ e _ (by simp) rfl)]
        simp
      rw [hl, u2] at u1
      simpa using u1.symm
    rw [g5 d, hv', ← hlen]
    have htl : (rowMajor (shape tgt)).map (x * ·) ≠ [] := by
      intro e
      have := congrArg List.length e
      simp at this
      exact hne this
    obtain ⟨i1, _⟩ := flattenLoop_spec d pre post spre spost v.offset v.readonly h3 tgt
      ((rowMajor (shape tgt)).map (x * ·)) 1 htl (by simp) (by omega) hwf (by
        intro e
        simp only [labels_append, List.mem_append] at e
        rcases e with (e | e) | e
        · exact absurd e h1
        · exact e
        · exact absurd e h2)
    rw [i1 (contig_rowMajor tgt x)]
    congr 2
    rw [hv]
    congr 1
    · rw [hn]; simp
    · have : ∀ (s : Dims) (hs : (rowMajor (shape s)).map (x * ·) ≠ []),
          ((rowMajor (shape s)).map (x * ·)).getLast hs = x := by
        intro s
        induction s with
        | nil => intro hs; simp at hs
        | cons p s ih =>
          intro hs
          cases s with
          | nil => simp [rowMajor, rowMajorAux]
          | cons q s =>
            have e1 : rowMajor (shape (p :: q :: s)) = Dims.volume (q :: s) :: rowMajor (shape (q :: s)) := by
              rw [shape_cons, rowMajor_shape_cons]
            simp only [e1, List.map_cons]
            rw [List.getLast_cons (by
              intro e; have := congrArg List.length e; simp at this)]
            exact ih _
      rw [this]

example := C06_flatten_fold ⟨[(2, 3), (3, 6)], [7, 1], 5, false⟩ ⟨[(2, 3), (4, 2), (5, 3)], [7, 3, 1], 5, false⟩ 3
  [(4, 2), (5, 3)] (by simp [View.WF, Sizes.WF]) (by decide) (by decide) (by decide)

example : View.flatten? ⟨[(2, 3), (4, 2), (5, 3)], [7, 3, 1], 5, false⟩ [4, 5] 3 =
    .ok (some ⟨[(2, 3), (3, 6)], [7, 1], 5, false⟩) := by decide

/-- A transposed view cannot be flattened in place; the copy branch is taken. -/
example : View.flatten? ⟨[(4, 2), (5, 3)], [1, 2], 0, false⟩ [4, 5] 3 = .ok none ∧
    (Var.flatten ⟨⟨[(4, 2), (5, 3)], [1, 2], 0, false⟩, id⟩ [4, 5] 3).map
      (fun y => ((List.range 6).map (fun k => y.buf k))) = .ok [0, 2, 4, 1, 3, 5] := by decide

/-! ## C07 broadcast -/

/-- **C07** (success): broadcasting succeeds exactly if the target includes all dimensions
of the input with the same extents. -/
theorem C07_broadcast_succeeds_iff (v : View) (tgt : Dims) (hw : v.WF) (ht : (labels tgt).Nodup) :
    (∃ v', v.broadcast tgt = .ok v') ↔ ∀ d n, (d, n) ∈ v.dims → (d, n) ∈ tgt :=
  ⟨fun ⟨_, h⟩ d n hm => (View.broadcast_ok hw ht h).1 (d, n) hm,
   fun h => ⟨_, View.broadcast_eq hw ht (fun p hp => h p.1 p.2 hp)⟩⟩

example := C07_broadcast_succeeds_iff ⟨[(2, 3)], [2], 1, false⟩ [(4, 5), (2, 3)] (by simp [View.WF, Sizes.WF]) (by decide)

/-- **C07** (elements): the element at any coordinates is the input's element at the same
coordinates (coordinates of added dimensions do not matter: the input's address does not
depend on them). -/
theorem C07_broadcast_elements (v v' : View) (tgt : Dims) (hw : v.WF) (ht : (labels tgt).Nodup)
    (h : v.broadcast tgt = .ok v') :
    v'.dims = tgt ∧ (∀ c, v'.addr c = v.addr c) ∧
    ∀ c d x, d ∉ labels v.dims → v'.addr (upd c d x) = v'.addr c := by
  obtain ⟨hi, rfl⟩ := View.broadcast_ok hw ht h
  have hin : ∀ d ∈ labels v.dims, d ∈ labels tgt := by
    intro d hd
    obtain ⟨n, hn⟩ := at?_ok_of_mem_labels hd
    exact mem_labels (hi _ (at?_ok_mem hn))
  have ha : ∀ c, addrAux tgt ((labels tgt).map (strideOf v.dims v.strides)) c = addrAux v.dims v.strides c :=
    fun c => addrAux_broadcast c hw.2.1 hw.1.1 ht hin
  refine ⟨rfl, fun c => by simp only [View.addr, ha], fun c d x hd => ?_⟩
  simp only [View.addr, ha, addrAux_upd hd]

example := C07_broadcast_elements ⟨[(2, 3)], [2], 1, false⟩ ⟨[(4, 5), (2, 3)], [0, 2], 1, true⟩ [(4, 5), (2, 3)]
  (by simp [View.WF, Sizes.WF]) (by decide) (by decide)

/-- No element exists if the volume is zero. -/
theorem not_inDims_of_volume_zero {s : Dims} (h : Dims.volume s = 0) (c : Dim → Int) : ¬ InDims s c := by
  intro hc
  have := position_bounds hc
  omega

/-- **C07** (protection, one step): broadcasting a view without shared elements gives a
view that is read-only or has no shared elements. -/
theorem broadcast_distinct {v v' : View} {tgt : Dims} (hw : v.WF) (ht : Sizes.WF tgt)
    (hd : v.readonly = false → v.Distinct) (h : v.broadcast tgt = .ok v') :
    v'.readonly = false → v'.Distinct := by
  obtain ⟨_, ha, _⟩ := C07_broadcast_elements v v' tgt hw ht.1 h
  obtain ⟨hi, rfl⟩ := View.broadcast_ok hw ht.1 h
  intro hr
  simp only at hr
  split at hr
  · rename_i hvol
    have hD := hd hr
    intro c c' hc hc' he d hdl
    simp only at hc hc' hdl
    rw [ha, ha] at he
    have sub : ∀ c, InDims tgt c → InDims v.dims c := fun c h d n hm => h d n (hi _ hm)
    have hdist := hD c c' (sub c hc) (sub c' hc') he
    by_cases hdv : d ∈ labels v.dims
    · exact hdist d hdv
    · -- an added dimension of a non-empty result has extent one
      have hp := volume_includes hw.1.1 ht.1 hi
      have hv1 := volume_perm hp
      rw [volume_append, hvol] at hv1
      have hpos : 0 < Dims.volume v.dims := by
        have := position_bounds (sub c hc); omega
      have hrest : Dims.volume (tgt.filter (fun p => !Sizes.contains v.dims p.1)) = 1 := by
        have : Dims.volume v.dims * 1 =
            Dims.volume v.dims * Dims.volume (tgt.filter (fun p => !Sizes.contains v.dims p.1)) := by
          rw [Int.mul_one]; exact hv1
        exact (mul_left_cancel₀ (by omega) this).symm
      have one : ∀ s : Dims, (∀ p ∈ s, 0 ≤ p.2) → Dims.volume s = 1 → ∀ p ∈ s, p.2 = 1 := by
        intro s
        induction s with
        | nil => simp
        | cons q s ih =>
          intro h0 hv p hp
          rw [volume_cons] at hv
          have hq0 := h0 q (by simp)
          have hs0 : 0 ≤ Dims.volume s := volume_nonneg (fun p hp => h0 p (List.mem_cons_of_mem _ hp))
          have hq1 : q.2 = 1 := Int.eq_one_of_mul_eq_one_right hq0 hv
          rw [hq1, Int.one_mul] at hv
          rcases List.mem_cons.1 hp with hp | hp
          · rw [hp]; exact hq1
          · exact ih (fun p hp => h0 p (List.mem_cons_of_mem _ hp)) hv p hp
      obtain ⟨n, hn⟩ := at?_ok_of_mem_labels hdl
      have hn := at?_ok_mem hn
      have hn1 : n = 1 := one _ (fun p hp => ht.2 p (List.mem_filter.1 hp).1) hrest (d, n)
        (List.mem_filter.2 ⟨hn, by simp [contains_false.2 hdv]⟩)
      obtain ⟨a0, a1⟩ := hc d n hn
      obtain ⟨b0, b1⟩ := hc' d n hn
      omega
  · simp at hr

example : View.broadcast ⟨[(2, 3)], [2], 1, false⟩ [(4, 5), (2, 3)] =
    .ok ⟨[(4, 5), (2, 3)], [0, 2], 1, true⟩ := by decide

example : View.broadcast ⟨[(2, 3)], [2], 1, false⟩ [(4, 1), (2, 3)] =
    .ok ⟨[(4, 1), (2, 3)], [0, 2], 1, false⟩ := by decide

/-! ## C08 rename -/

/-- Simultaneous substitution of labels. -/
def substLabel (ns : List (Dim × Dim)) (d : Dim) : Dim :=
  match ns.find? (fun p => p.1 = d) with
  | some p => p.2
  | none => d

/-- **C08** (one renaming): succeeds exactly if the source exists and the target is not
another present label; the label is replaced in place. -/
theorem C08_replace_one (s : Dims) (f t : Dim) (hn : (labels s).Nodup) :
    ((∃ s', replaceKey s f t = .ok s') ↔ f ∈ labels s ∧ (t = f ∨ t ∉ labels s)) ∧
    ∀ s', replaceKey s f t = .ok s' →
      s' = s.map (fun p => (if p.1 = f then t else p.1, p.2)) := by
  have hmap : ∀ pre post : Dims, ∀ n, f ∉ labels pre → f ∉ labels post →
      (pre ++ (f, n) :: post).map (fun p => (if p.1 = f then t else p.1, p.2)) = pre ++ (t, n) :: post := by
    intro pre post n h1 h2
    have : ∀ s : Dims, f ∉ labels s → s.map (fun p => (if p.1 = f then t else p.1, p.2)) = s := by
      intro s hs
      induction s with
      | nil => rfl
      | cons p s ih =>
        simp only [labels_cons, List.mem_cons, not_or] at hs
        rw [List.map_cons, ih hs.2, if_neg (Ne.symm hs.1)]
    rw [List.map_append, List.map_cons, this pre h1, this post h2]; simp
  have hsome : f ∈ labels s → (t = f ∨ t ∉ labels s) → ∃ pre n post, s = pre ++ (f, n) :: post ∧
      f ∉ labels pre ∧ f ∉ labels post ∧ replaceKey s f t = .ok (pre ++ (t, n) :: post) := by
    intro hf ht
    obtain ⟨pre, n, post, rfl, h1⟩ := split_label hf
    obtain ⟨_, h2, _⟩ := nodup_mid hn
    refine ⟨pre, n, post, rfl, h1, h2, replaceKey_mid h1 ?_ ?_⟩
    · rcases ht with rfl | ht
      · exact h1
      · simp at ht; exact ht.1
    · rcases ht with rfl | ht
      · exact h2
      · simp at ht; exact ht.2.2
  have hback : ∀ s', replaceKey s f t = .ok s' → f ∈ labels s ∧ (t = f ∨ t ∉ labels s) := by
    intro s' h
    have hsk : setKey s f t = .ok s' ∧ (t = f ∨ t ∉ labels s) := by
      simp only [replaceKey] at h
      split at h
      · simp at h
      · rename_i hc
        refine ⟨h, ?_⟩
        by_cases e : t = f
        · exact .inl e
        · right
          intro hm
          exact hc ⟨Ne.symm e, contains_iff.2 hm⟩
    refine ⟨?_, hsk.2⟩
    by_contra hf
    have : ∀ s : Dims, f ∉ labels s → setKey s f t = .error .dimension := by
      intro s
      induction s with
      | nil => intro _; rfl
      | cons p s ih =>
        intro hs
        simp only [labels_cons, List.mem_cons, not_or] at hs
        simp [setKey, Ne.symm hs.1, ih hs.2, Except.map]
    rw [this s hf] at hsk
    simp at hsk
  refine ⟨⟨fun ⟨s', h⟩ => hback s' h, fun ⟨h1, h2⟩ => ?_⟩, ?_⟩
  · obtain ⟨pre, n, post, _, _, _, h⟩ := hsome h1 h2
    exact ⟨_, h⟩
  · intro s' h
    obtain ⟨h1, h2⟩ := hback s' h
    obtain ⟨pre, n, post, hs, a1, a2, h'⟩ := hsome h1 h2
    rw [h'] at h
    injection h with h
    rw [← h, hs, hmap pre post n a1 a2]

example := C08_replace_one [(2, 3), (3, 4), (5, 1)] 2 7 (by decide)

/-- **C08** (sequence): renaming several labels is renaming one after the other; with
`strict` (the public API) a missing source throws. -/
theorem C08_rename_sequence (s : Dims) (f t : Dim) (ns : List (Dim × Dim)) (hn : (labels s).Nodup) :
    (∀ s1, replaceKey s f t = .ok s1 → renameDims s ((f, t) :: ns) true = renameDims s1 ns true) ∧
    ((f ∉ labels s ∨ (t ≠ f ∧ t ∈ labels s)) → renameDims s ((f, t) :: ns) true = .error .dimension) := by
  constructor
  · intro s1 h
    have hf := ((C08_replace_one s f t hn).1.1 ⟨s1, h⟩).1
    simp only [renameDims, contains_iff.2 hf, if_true, h, bind, Except.bind]
  · rintro (h | ⟨h1, h2⟩)
    · simp [renameDims, contains_false.2 h]
    · by_cases hf : f ∈ labels s
      · have : replaceKey s f t = .error .dimension := by
          simp [replaceKey, contains_iff.2 h2, Ne.symm h1]
        simp [renameDims, contains_iff.2 hf, this, bind, Except.bind]
      · simp [renameDims, contains_false.2 hf]

example := (C08_rename_sequence [(2, 3), (3, 4), (5, 1)] 2 7 [(5, 2)] (by decide)).1 [(7, 3), (3, 4), (5, 1)] (by decide)

/-- **C08** (order, extents, elements): renaming a view keeps extents and their order,
strides, offset and flags; hence it keeps every element. -/
theorem C08_rename_view (v v' : View) (ns : List (Dim × Dim)) (b : Bool) (hn : (labels v.dims).Nodup)
    (h : v.renameDims ns b = .ok v') :
    shape v'.dims = shape v.dims ∧ v'.strides = v.strides ∧ v'.offset = v.offset ∧
    v'.readonly = v.readonly := by
  simp only [View.renameDims, bind, Except.bind] at h
  split at h
  · simp at h
  rename_i dims hd
  injection h with h
  subst h
  refine ⟨?_, rfl, rfl, rfl⟩
  have : ∀ (ns : List (Dim × Dim)) (s s' : Dims), (labels s).Nodup → renameDims s ns b = .ok s' →
      shape s' = shape s := by
    intro ns
    induction ns with
    | nil => intro s s' _ h; simp [renameDims] at h; rw [h]
    | cons p ns ih =>
      intro s s' hn h
      simp only [renameDims] at h
      split at h
      · simp only [bind, Except.bind] at h
        split at h
        · simp at h
        rename_i s1 hs1
        have e := (C08_replace_one s p.1 p.2 hn).2 s1 hs1
        have hsh : shape s1 = shape s := by
          rw [e]; simp [shape, List.map_map, Function.comp_def]
        have hn1 : (labels s1).Nodup := by
          obtain ⟨_, hc⟩ := (C08_replace_one s p.1 p.2 hn).1.1 ⟨s1, hs1⟩
          rw [e]
          have hlab : labels (s.map (fun q => (if q.1 = p.1 then p.2 else q.1, q.2))) =
              (labels s).map (fun d => if d = p.1 then p.2 else d) := by
            simp [labels, List.map_map, Function.comp_def]
          rw [hlab]
          exact nodup_map_replace hn (hc.imp Eq.symm id)
        rw [ih s1 s' hn1 h, hsh]
      · split at h
        · simp at h
        · exact ih s s' hn h
  exact this ns _ _ hn hd

example := C08_rename_view ⟨[(2, 3), (3, 6)], [7, 1], 5, false⟩ ⟨[(4, 3), (2, 6)], [7, 1], 5, false⟩ [(2, 4), (3, 2)] true
  (by decide) (by decide)

/-- **C08** (simultaneous substitution): if the sources are distinct and present, and the
targets are distinct and not among the present labels, renaming succeeds and equals the
simultaneous substitution. -/
theorem C08_rename_simultaneous (ns : List (Dim × Dim)) (b : Bool) : ∀ (s : Dims), (labels s).Nodup →
    (ns.map Prod.fst).Nodup → (∀ p ∈ ns, p.1 ∈ labels s) → (ns.map Prod.snd).Nodup →
    (∀ p ∈ ns, p.2 ∉ labels s) →
    renameDims s ns b = .ok (s.map (fun p => (substLabel ns p.1, p.2))) := by
  induction ns with
  | nil =>
    intro s _ _ _ _ _
    simp [renameDims, substLabel]
  | cons q ns ih =>
    intro s hn hf hin ht hout
    obtain ⟨f, t⟩ := q
    simp only [List.map_cons, List.nodup_cons] at hf ht
    have hfs := hin (f, t) (by simp)
    have hts := hout (f, t) (by simp)
    obtain ⟨s1, hs1⟩ := (C08_replace_one s f t hn).1.2 ⟨hfs, .inr hts⟩
    have e1 := (C08_replace_one s f t hn).2 s1 hs1
    have hl1 : labels s1 = (labels s).map (fun d => if d = f then t else d) := by
      rw [e1]; simp [labels, List.map_map, Function.comp_def]
    have hn1 : (labels s1).Nodup := by
      rw [hl1]; exact nodup_map_replace hn (.inr hts)
    simp only [renameDims, contains_iff.2 hfs, if_true, hs1, bind, Except.bind]
    rw [ih s1 hn1 hf.2 ?_ ht.2 ?_]
    · rw [e1, List.map_map]
      congr 1
      apply List.map_congr_left
      intro p hp
      simp only [Function.comp_def, Prod.mk.injEq, and_true]
      by_cases hpf : p.1 = f
      · rw [if_pos hpf]
        have h1 : substLabel ((f, t) :: ns) p.1 = t := by simp [substLabel, hpf]
        have h2 : substLabel ns t = t := by
          unfold substLabel
          rw [List.find?_eq_none.2]
          intro r hr
          simp only [decide_eq_true_eq]
          intro e
          exact hts (e ▸ hin r (List.mem_cons_of_mem _ hr))
        rw [h1, h2]
      · rw [if_neg hpf]
        simp [substLabel, Ne.symm hpf]
    · intro p hp
      rw [hl1, List.mem_map]
      refine ⟨p.1, hin p (List.mem_cons_of_mem _ hp), ?_⟩
      rw [if_neg]
      intro e
      exact hf.1 (e ▸ List.mem_map.2 ⟨p, hp, rfl⟩)
    · intro p hp
      rw [hl1, List.mem_map]
      rintro ⟨d, hd, he⟩
      split at he
      · exact ht.1 (he ▸ List.mem_map.2 ⟨p, hp, rfl⟩)
      · exact hout p (List.mem_cons_of_mem _ hp) (he ▸ hd)

example := C08_rename_simultaneous [(2, 7), (5, 8)] true [(2, 3), (3, 4), (5, 1)] (by decide) (by decide) (by decide) (by decide)
  (by decide)

example : renameDims [(2, 3), (3, 4), (5, 1)] [(2, 7), (5, 8)] true = .ok [(7, 3), (3, 4), (8, 1)] := by
  decide

/-- Swapping two labels in one call throws, since the renamings are applied one by one. -/
example : renameDims [(2, 3), (3, 4)] [(2, 3), (3, 2)] true = .error .dimension := by decide

/-! ## Views derived by any sequence of operations (C04, C07) -/

/-- Views of a buffer of `n` elements: a fresh variable, or derived from such a view by
any view operation. -/
inductive ViewOf (n : Int) : View → Prop
  | fresh {dims} : Sizes.WF dims → Dims.volume dims = n → ViewOf n (View.fresh dims)
  | noSlice {v v'} : ViewOf n v → v.slice Slice.none = .ok v' → ViewOf n v'
  | slice {v v' p} : ViewOf n v → p.Constructed → v.slice p = .ok v' → ViewOf n v'
  | transpose {v v' o} : ViewOf n v → v.transpose o = .ok v' → ViewOf n v'
  | broadcast {v v' t} : ViewOf n v → Sizes.WF t → v.broadcast t = .ok v' → ViewOf n v'
  | fold {v v' d t} : ViewOf n v → v.fold d t = .ok v' → ViewOf n v'
  | flatten {v v' ls d} : ViewOf n v → v.flatten? ls d = .ok (some v') → ViewOf n v'
  | rename {v v' ns b} : ViewOf n v → v.renameDims ns b = .ok v' → ViewOf n v'
  | asConst {v} : ViewOf n v → ViewOf n v.asConst
  | squeeze {v v' s} : ViewOf n v → v.squeeze s = .ok v' → ViewOf n v'

/-- What every derived view satisfies. -/
def GoodView (n : Int) (v : View) : Prop :=
  v.WF ∧ v.InBounds n ∧ (v.readonly = false → v.Distinct)

theorem slice_good {n : Int} {v v' : View} {p : Slice} (hg : GoodView n v) (hp : p.Constructed)
    (h : v.slice p = .ok v') : GoodView n v' := by
  obtain ⟨hw, hb, hd⟩ := hg
  obtain ⟨d, b, e, st⟩ := p
  obtain ⟨h0, hst, hse⟩ := hp.spec
  simp only at h0 hst hse
  obtain ⟨m, hm, hle⟩ := (C04_slice_accepts_iff v _ hw hp).1.1 ⟨v', h⟩
  simp only at hm hle
  obtain ⟨pre, m', post, spre, x, spost, hv', k1, k2, k3⟩ := View.split hw.2.1 (mem_labels hm)
  have hm' : m' = m := by
    have := at?_of_mem hw.1.1 hm
    rw [hv'] at this
    simp only [at?_mid k1] at this
    injection this
  subst hm'
  have hx : 0 ≤ x := hw.2.2 x (by rw [hv']; simp)
  have hpre : ∀ p ∈ pre, 0 ≤ p.2 := fun p hp => hw.1.2 p (by rw [hv']; simp [hp])
  have hpost : ∀ p ∈ post, 0 ≤ p.2 := fun p hp => hw.1.2 p (by rw [hv']; simp [hp])
  have hspre : ∀ s ∈ spre, 0 ≤ s := fun s hs => hw.2.2 s (by rw [hv']; simp [hs])
  have hspost : ∀ s ∈ spost, 0 ≤ s := fun s hs => hw.2.2 s (by rw [hv']; simp [hs])
  have hnd : (labels (pre ++ (d, m') :: post)).Nodup := by have := hw.1.1; rw [hv'] at this; exact this
  by_cases hr : e = -1
  · subst hr
    obtain ⟨g1, g2, g3, g4⟩ := C04_point_slice v v' d b st hw hp h
    have hv'' : v' = ⟨pre ++ post, spre ++ spost, v.offset + b * x, v.readonly⟩ := by
      rw [hv', View.slice_point_eq k1 k2 h0 (by simpa using hle)] at h
      injection h with h; exact h.symm
    refine ⟨⟨⟨?_, ?_⟩, ?_, ?_⟩, ?_, ?_⟩
    · rw [g1]; exact hw.1.1.filter _
    · intro p hp'; exact hw.1.2 p (((g2 p.1 p.2).1 hp').1)
    · rw [hv'']; simp [k2, k3]
    · rw [hv'']; intro s hs
      rcases List.mem_append.1 hs with hs | hs
      · exact hspre s hs
      · exact hspost s hs
    · intro c hc; rw [g3]; exact hb _ (g4 c hc)
    · intro hro c c' hc hc' he d' hd'
      rw [g3, g3] at he
      have hro' : v.readonly = false := by rw [hv''] at hro; exact hro
      have := hd hro' _ _ (g4 c hc) (g4 c' hc') he d' (by rw [g1] at hd'; exact (List.mem_filter.1 hd').1)
      have hne : d' ≠ d := by rw [g1] at hd'; simpa using (List.mem_filter.1 hd').2
      rwa [upd_ne hne, upd_ne hne] at this
  · have hse : b ≤ e := hse.resolve_left hr
    rw [if_neg hr] at hle
    obtain ⟨g1, g2, ⟨k, hk, hk2⟩, g4, g5⟩ := C04_range_slice v v' d b e st hw hp hr h
    have hext := (sliceExtent_spec hst hse).1
    have hv'' : v' = ⟨pre ++ (d, sliceExtent b e st) :: post, spre ++ x * st :: spost,
        v.offset + b * x, v.readonly⟩ := by
      rw [hv', View.slice_range_eq k1 k2 h0 hse hst hle] at h
      injection h with h; exact h.symm
    refine ⟨⟨⟨?_, ?_⟩, ?_, ?_⟩, ?_, ?_⟩
    · rw [g1]; exact hw.1.1
    · rw [hv'']; intro p hp'
      simp only [List.mem_append, List.mem_cons] at hp'
      rcases hp' with hp' | rfl | hp'
      · exact hpre p hp'
      · exact hext
      · exact hpost p hp'
    · rw [hv'']; simp [k2, k3]
    · rw [hv'']; intro s hs
      simp only [List.mem_append, List.mem_cons] at hs
      rcases hs with hs | rfl | hs
      · exact hspre s hs
      · exact mul_nonneg hx (le_of_lt hst)
      · exact hspost s hs
    · intro c hc; rw [g4]; exact hb _ (g5 c hc)
    · intro hro c c' hc hc' he d' hd'
      rw [g4, g4] at he
      have hro' : v.readonly = false := by rw [hv''] at hro; exact hro
      have := hd hro' _ _ (g5 c hc) (g5 c' hc') he d' (by rw [← g1]; exact hd')
      by_cases hne : d' = d
      · subst hne
        rw [upd_same, upd_same] at this
        have : c d' * st = c' d' * st := by omega
        exact mul_right_cancel₀ (by omega) this
      · rwa [upd_ne hne, upd_ne hne] at this

theorem volume_zero_of_mem {s : Dims} {d : Dim} (h : (d, (0 : Int)) ∈ s) : Dims.volume s = 0 := by
  obtain ⟨a, b, rfl⟩ := List.append_of_mem h
  simp

theorem fold_good {n : Int} {v v' : View} {d : Dim} {t : Dims} (hg : GoodView n v)
    (h : v.fold d t = .ok v') : GoodView n v' := by
  obtain ⟨hw, hb, hd⟩ := hg
  have ha := View.fold_addr hw h
  obtain ⟨pre, m, post, spre, x, spost, hv, h1, h2, h3, h4, hv', hvol, hwf⟩ := View.fold_ok hw h
  have hwd : v.dims = pre ++ (d, m) :: post := by rw [hv]
  have hwd' : v'.dims = pre ++ t ++ post := by rw [hv']
  have hx : 0 ≤ x := hw.2.2 x (by rw [hv]; simp)
  have htn : ∀ p ∈ t, 0 ≤ p.2 := fun p hp => hwf.2 p (by simp [hp])
  have htnd : (labels t).Nodup := by
    have := hwf.1
    simp only [labels_append] at this
    exact (List.nodup_append.1 (List.nodup_append.1 this).1).2.1
  have hmt : ∀ c, InDims v'.dims c → m = Dims.volume t := by
    intro c hc
    have hpos := position_bounds hc
    rw [hwd, hwd'] at hvol
    have hv1 : Dims.volume v'.dims = Dims.volume pre * Dims.volume t * Dims.volume post := by
      rw [hwd', volume_append, volume_append]
    simp only [volume_append, volume_cons] at hvol
    have hz : Dims.volume pre * Dims.volume post ≠ 0 := by
      intro e
      have : Dims.volume v'.dims = Dims.volume pre * Dims.volume post * Dims.volume t := by rw [hv1]; ring
      rw [e] at this; omega
    apply mul_left_cancel₀ hz
    calc Dims.volume pre * Dims.volume post * m = Dims.volume pre * (m * Dims.volume post) := by ring
      _ = Dims.volume pre * Dims.volume t * Dims.volume post := hvol
      _ = _ := by ring
  have hin : ∀ c, InDims v'.dims c → InDims t c ∧ InDims v.dims (upd c d (position t c)) := by
    intro c hc
    have hct : InDims t c := fun d' n' hm => hc d' n' (by rw [hwd']; simp [hm])
    refine ⟨hct, ?_⟩
    intro d' n' hm
    by_cases hdd : d' = d
    · subst hdd
      have hnn : n' = m := by
        have e1 := at?_of_mem hw.1.1 hm
        rw [hwd, at?_mid h1] at e1
        injection e1 with e1; exact e1.symm
      rw [upd_same, hnn, hmt c hc]
      exact position_bounds hct
    · rw [upd_ne hdd]
      apply hc
      rw [hwd] at hm; rw [hwd']
      simp only [List.mem_append, List.mem_cons, Prod.mk.injEq, hdd, false_and, false_or] at hm ⊢
      tauto
  refine ⟨⟨?_, ?_, ?_⟩, ?_, ?_⟩
  · rw [hwd']; exact hwf
  · rw [hv']; simp [h3, h4]
  · rw [hv']
    intro s hs
    simp only [List.mem_append, List.mem_map] at hs
    rcases hs with (hs | ⟨y, hy, rfl⟩) | hs
    · exact hw.2.2 s (by rw [hv]; simp [hs])
    · exact mul_nonneg hx (rowMajor_nonneg htn y hy)
    · exact hw.2.2 s (by rw [hv]; simp [hs])
  · intro c hc; rw [ha]; exact hb _ (hin c hc).2
  · intro hro c c' hc hc' he d' hd'
    have hro' : v.readonly = false := by rw [hv'] at hro; exact hro
    rw [ha, ha] at he
    have hdist := hd hro' _ _ (hin c hc).2 (hin c' hc').2 he
    have hpos : position t c = position t c' := by
      have := hdist d (by rw [hwd]; simp)
      rwa [upd_same, upd_same] at this
    rw [hwd'] at hd'
    simp only [labels_append, List.mem_append] at hd'
    by_cases hdt : d' ∈ labels t
    · exact position_inj htnd (hin c hc).1 (hin c' hc').1 hpos d' hdt
    · have hdne : d' ≠ d := by
        rintro rfl
        rcases hd' with (h | h) | h
        · exact h1 h
        · exact hdt h
        · exact h2 h
      have := hdist d' (by
        rw [hwd]
        simp only [labels_append, labels_cons, List.mem_append, List.mem_cons]
        tauto)
      rwa [upd_ne hdne, upd_ne hdne] at this

theorem flatten_good {n : Int} {v v' : View} {ls : List Dim} {d : Dim} (hg : GoodView n v)
    (h : v.flatten? ls d = .ok (some v')) : GoodView n v' := by
  obtain ⟨hw, hb, hd⟩ := hg
  by_cases hne : ls = []
  · subst hne
    simp only [View.flatten?, if_true, bind, Except.bind] at h
    split at h
    · simp at h
    rename_i dims hdims
    obtain ⟨hde, hnot, _, _⟩ := Dims.addInner_ok hdims
    have hwf := Dims.addInner_WF hdims hw.1
    simp only [Except.ok.injEq, Option.some.injEq] at h
    subst h
    subst hde
    have ha : ∀ c, addrAux (v.dims ++ [(d, 1)]) (v.strides ++ [1]) c =
        addrAux v.dims v.strides c + c d := by
      intro c; rw [addrAux_append hw.2.1]; simp
    have hzero : ∀ c, InDims (v.dims ++ [(d, 1)]) c → c d = 0 := by
      intro c hc
      have := hc d 1 (by simp)
      omega
    have hin : ∀ c, InDims (v.dims ++ [(d, 1)]) c → InDims v.dims c :=
      fun c hc d' n' hm => hc d' n' (by simp [hm])
    refine ⟨⟨hwf, by simp [hw.2.1], ?_⟩, ?_, ?_⟩
    · intro s hs
      simp only [List.mem_append, List.mem_singleton] at hs
      rcases hs with hs | rfl
      · exact hw.2.2 s hs
      · omega
    · intro c hc
      simp only at hc
      simp only [View.addr, ha, hzero c hc, Int.add_zero]
      exact hb c (hin c hc)
    · intro hro c c' hc hc' he d' hd'
      simp only at hc hc' hro hd'
      simp only [View.addr, ha, hzero c hc, hzero c' hc', Int.add_zero] at he
      have := hd hro c c' (hin c hc) (hin c' hc') he
      simp only [labels_append, labels_cons, labels_nil, List.mem_append, List.mem_singleton] at hd'
      rcases hd' with hd' | hd'
      · exact this d' hd'
      · rw [hd', hzero c hc, hzero c' hc']
  · obtain ⟨pre, mid, post, spre, smid, spost, hv, h1, h2, h3, h4, h5, _⟩ := View.flatten?_spec hw hne _ h
    obtain ⟨h6, h7, h8, h9, h10⟩ := h5 _ rfl
    have hwd : v.dims = pre ++ mid ++ post := by rw [hv]
    have hwd' : v'.dims = pre ++ (d, Dims.volume mid) :: post := by rw [h10]
    have hmidw : Sizes.WF mid := by
      apply sublist_WF _ hw.1
      rw [hwd, List.append_assoc]
      exact List.Sublist.trans (List.sublist_append_left _ _) (List.sublist_append_right _ _)
    have hnd := hw.1.1
    rw [hwd] at hnd
    simp only [labels_append] at hnd
    obtain ⟨n1, n2, n3⟩ := List.nodup_append.1 hnd
    obtain ⟨n4, n5, n6⟩ := List.nodup_append.1 n1
    -- the coordinates of the input corresponding to coordinates of the result
    let back : (Dim → Int) → (Dim → Int) := fun c e =>
      if e ∈ labels mid then coordsOf mid (c d) e else c e
    have hvn : 0 ≤ Dims.volume mid := volume_nonneg hmidw.2
    have hcd : ∀ c, InDims v'.dims c → 0 ≤ c d ∧ c d < Dims.volume mid := by
      intro c hc; exact hc d _ (by rw [hwd']; simp)
    have hpos : ∀ c, InDims v'.dims c → position mid (back c) = c d := by
      intro c hc
      rw [position_congr (c' := coordsOf mid (c d)) (fun e he => by simp [back, he])]
      exact position_coordsOf hmidw (hcd c hc).1 (hcd c hc).2
    have hin : ∀ c, InDims v'.dims c → InDims v.dims (back c) := by
      intro c hc d' n' hm
      rw [hwd] at hm
      simp only [List.mem_append] at hm
      by_cases he : d' ∈ labels mid
      · have hmm : (d', n') ∈ mid := by
          rcases hm with (hm | hm) | hm
          · exact absurd rfl (n6 d' (mem_labels hm) d' he)
          · exact hm
          · exact absurd rfl (n3 d' (List.mem_append_right _ he) d' (mem_labels hm))
        simp only [back, he, if_true]
        exact coordsOf_inDims hmidw (hcd c hc).1 (hcd c hc).2 d' n' hmm
      · simp only [back, he, if_false]
        apply hc d' n'
        rw [hwd']
        rcases hm with (hm | hm) | hm
        · simp [hm]
        · exact absurd (mem_labels hm) he
        · simp [hm]
    have hpm : ∀ e ∈ labels pre, e ∉ labels mid := fun e he hm => n6 e he e hm rfl
    have hmp : ∀ e ∈ labels post, e ∉ labels mid := fun e he hm => n3 e (List.mem_append_right _ hm) e he rfl
    have ha : ∀ c, InDims v'.dims c → v'.addr c = v.addr (back c) := by
      intro c hc
      rw [h10, hv]
      simp only [View.addr]
      rw [addrAux_mid h2, addrAux_append (by simp [h2, h3]), addrAux_append h2, contig_addr h9 h3 h8,
        hpos c hc]
      rw [addrAux_congr (c := back c) (c' := c) (s := pre) (fun e he => by simp [back, hpm e he]),
        addrAux_congr (c := back c) (c' := c) (s := post) (fun e he => by simp [back, hmp e he])]
      ring
    refine ⟨⟨⟨?_, ?_⟩, ?_, ?_⟩, ?_, ?_⟩
    · rw [hwd']
      simp only [labels_append, labels_cons]
      rw [List.nodup_append]
      refine ⟨n4, List.nodup_cons.2 ⟨h7, n2⟩, ?_⟩
      intro a haa b hbb
      rcases List.mem_cons.1 hbb with rfl | hbb
      · exact fun e => h6 (e ▸ haa)
      · exact n3 a (List.mem_append_left _ haa) b hbb
    · rw [hwd']
      intro p hp
      simp only [List.mem_append, List.mem_cons] at hp
      rcases hp with hp | rfl | hp
      · exact hw.1.2 p (by rw [hwd]; simp [hp])
      · exact hvn
      · exact hw.1.2 p (by rw [hwd]; simp [hp])
    · rw [h10]; simp [h2, h4]
    · rw [h10]
      intro s hs
      simp only [List.mem_append, List.mem_cons] at hs
      rcases hs with hs | rfl | hs
      · exact hw.2.2 s (by rw [hv]; simp [hs])
      · exact hw.2.2 _ (by rw [hv]; simp [List.getLast_mem])
      · exact hw.2.2 s (by rw [hv]; simp [hs])
    · intro c hc; rw [ha c hc]; exact hb _ (hin c hc)
    · intro hro c c' hc hc' he d' hd'
      have hro' : v.readonly = false := by rw [h10] at hro; exact hro
      rw [ha c hc, ha c' hc'] at he
      have hdist := hd hro' _ _ (hin c hc) (hin c' hc') he
      rw [hwd'] at hd'
      simp only [labels_append, labels_cons, List.mem_append, List.mem_cons] at hd'
      rcases hd' with hd' | rfl | hd'
      · have := hdist d' (by rw [hwd]; simp [hd'])
        simpa [back, hpm d' hd'] using this
      · rw [← hpos c hc, ← hpos c' hc']
        apply position_congr
        intro e he'
        exact hdist e (by rw [hwd]; simp [he'])
      · have := hdist d' (by rw [hwd]; simp [hd'])
        simpa [back, hmp d' hd'] using this

theorem rename_good {n : Int} {v v' : View} {ns : List (Dim × Dim)} {b : Bool} (hg : GoodView n v)
    (h : v.renameDims ns b = .ok v') : GoodView n v' := by
  simp only [View.renameDims, bind, Except.bind] at h
  split at h
  · simp at h
  rename_i dims hd
  injection h with h
  subst h
  have step : ∀ (s s' : Dims) (f t : Dim), GoodView n ⟨s, v.strides, v.offset, v.readonly⟩ →
      replaceKey s f t = .ok s' → GoodView n ⟨s', v.strides, v.offset, v.readonly⟩ := by
    intro s s' f t ⟨hw, hb, hdis⟩ hr
    have hw1 := hw.1
    simp only at hw1
    obtain ⟨hf, hc⟩ := (C08_replace_one s f t hw1.1).1.1 ⟨s', hr⟩
    have e := (C08_replace_one s f t hw1.1).2 s' hr
    obtain ⟨pre, m, post, spre, x, spost, hv, k1, k2, k3⟩ :=
      View.split (v := ⟨s, v.strides, v.offset, v.readonly⟩) hw.2.1 hf
    simp only [View.mk.injEq, and_true] at hv
    obtain ⟨hs, hst⟩ := hv
    have hnd := hw1.1
    rw [hs] at hnd
    obtain ⟨_, k4, _⟩ := nodup_mid hnd
    have hs' : s' = pre ++ (t, m) :: post := by
      have ht1 : t ∉ labels pre := by
        rcases hc with rfl | hc
        · exact k1
        · rw [hs] at hc; simp at hc; exact hc.1
      have ht2 : t ∉ labels post := by
        rcases hc with rfl | hc
        · exact k4
        · rw [hs] at hc; simp at hc; exact hc.2.2
      rw [hs, replaceKey_mid k1 ht1 ht2] at hr
      injection hr with hr; exact hr.symm
    have ht1 : t ∉ labels pre := by
      rcases hc with rfl | hc
      · exact k1
      · rw [hs] at hc; simp at hc; exact hc.1
    have ht2 : t ∉ labels post := by
      rcases hc with rfl | hc
      · exact k4
      · rw [hs] at hc; simp at hc; exact hc.2.2
    have ha : ∀ c, addrAux s' v.strides c = addrAux s v.strides (upd c f (c t)) := by
      intro c
      rw [hs', hs, hst, addrAux_mid k2, addrAux_mid k2, addrAux_upd k1, addrAux_upd k4, upd_same]
    have hin : ∀ c, InDims s' c → InDims s (upd c f (c t)) := by
      intro c hcc d' n' hm
      rw [hs] at hm
      rw [hs'] at hcc
      simp only [List.mem_append, List.mem_cons, Prod.mk.injEq] at hm
      by_cases hdf : d' = f
      · subst hdf
        rw [upd_same]
        rcases hm with hm | hm | hm
        · exact absurd (mem_labels hm) k1
        · rw [hm.2]; exact hcc t m (by simp)
        · exact absurd (mem_labels hm) k4
      · rw [upd_ne hdf]
        apply hcc
        rcases hm with hm | hm | hm
        · simp [hm]
        · exact absurd hm.1 hdf
        · simp [hm]
    refine ⟨⟨replaceKey_WF hr hw1, ?_, hw.2.2⟩, ?_, ?_⟩
    · have := hw.2.1
      simp only at this ⊢
      rw [this, e]; simp
    · intro c hc
      have := hb (upd c f (c t)) (hin c hc)
      simpa only [View.addr, ha] using this
    · intro hro c c' hc hc' he d' hd'
      simp only [View.addr, ha] at he
      have := hdis hro _ _ (hin c hc) (hin c' hc') he
      simp only [hs', labels_append, labels_cons, List.mem_append, List.mem_cons] at hd'
      rcases hd' with hd' | rfl | hd'
      · have h1 := this d' (by simp only [hs]; simp [hd'])
        have hne : d' ≠ f := fun e => k1 (e ▸ hd')
        rwa [upd_ne hne, upd_ne hne] at h1
      · have h1 := this f hf
        rwa [upd_same, upd_same] at h1
      · have h1 := this d' (by simp only [hs]; simp [hd'])
        have hne : d' ≠ f := fun e => k4 (e ▸ hd')
        rwa [upd_ne hne, upd_ne hne] at h1
  have all : ∀ (ns : List (Dim × Dim)) (s s' : Dims), GoodView n ⟨s, v.strides, v.offset, v.readonly⟩ →
      renameDims s ns b = .ok s' → GoodView n ⟨s', v.strides, v.offset, v.readonly⟩ := by
    intro ns
    induction ns with
    | nil => intro s s' hg h; simp [renameDims] at h; exact h ▸ hg
    | cons p ns ih =>
      intro s s' hg h
      simp only [renameDims] at h
      split at h
      · simp only [bind, Except.bind] at h
        split at h
        · simp at h
        rename_i s1 hs1
        exact ih s1 s' (step s s1 p.1 p.2 hg hs1) h
      · split at h
        · simp at h
        · exact ih s s' hg h
  exact all ns v.dims dims (by cases v; exact hg) hd

theorem transpose_good {n : Int} {v v' : View} {o : List Dim} (hg : GoodView n v)
    (h : v.transpose o = .ok v') : GoodView n v' := by
  obtain ⟨hw, hb, hd⟩ := hg
  obtain ⟨_, h2, _, _, h5, h6, _⟩ := View.transpose_ok hw h
  have ha := View.transpose_addr hw h
  have hin : ∀ c, InDims v'.dims c → InDims v.dims c := fun c hc d n hm => hc d n (h2.mem_iff.2 hm)
  refine ⟨h6, fun c hc => by rw [ha]; exact hb c (hin c hc), ?_⟩
  intro hro c c' hc hc' he d hdm
  rw [ha, ha] at he
  exact hd (h5 ▸ hro) c c' (hin c hc) (hin c' hc') he d ((h2.map Prod.fst).mem_iff.1 hdm)

theorem broadcast_good {n : Int} {v v' : View} {t : Dims} (hg : GoodView n v) (ht : Sizes.WF t)
    (h : v.broadcast t = .ok v') : GoodView n v' := by
  obtain ⟨hw, hb, hd⟩ := hg
  obtain ⟨_, ha, _⟩ := C07_broadcast_elements v v' t hw ht.1 h
  have hdis := broadcast_distinct hw ht hd h
  obtain ⟨hi, hv'⟩ := View.broadcast_ok hw ht.1 h
  refine ⟨?_, ?_, hdis⟩
  · rw [hv']
    refine ⟨ht, by simp, ?_⟩
    intro s hs
    obtain ⟨d, _, rfl⟩ := List.mem_map.1 hs
    exact strideOf_nonneg hw.2.2 d
  · intro c hc
    rw [ha]
    apply hb
    intro d m hm
    exact hc d m (by rw [hv']; exact hi _ hm)

theorem noSlice_eq {v v' : View} (h : v.slice Slice.none = .ok v') : v' = v := by
  have : v.slice Slice.none = .ok v := by
    simp [View.slice, validSlice, bind, Except.bind]
  rw [this] at h; injection h with h; exact h.symm

theorem squeeze_good {n : Int} {v v' : View} {s : Option (List Dim)} (hg : GoodView n v)
    (h : v.squeeze s = .ok v') : GoodView n v' := by
  simp only [View.squeeze, bind, Except.bind] at h
  split at h
  · simp at h
  rename_i ds hds
  clear hds
  induction ds generalizing v with
  | nil => simp [pure, Except.pure] at h; exact h ▸ hg
  | cons d ds ih =>
    simp only [List.foldlM_cons, bind, Except.bind] at h
    split at h
    · simp at h
    rename_i v1 hv1
    exact ih (slice_good hg (.inr (by simp [Slice.point])) hv1) h

theorem viewOf_good {n : Int} {v : View} (h : ViewOf n v) : GoodView n v := by
  induction h with
  | fresh hw hn => exact ⟨fresh_WF hw, hn ▸ fresh_inBounds _, fun _ => fresh_distinct hw.1⟩
  | noSlice _ h ih => exact noSlice_eq h ▸ ih
  | slice _ hp h ih => exact slice_good ih hp h
  | transpose _ h ih => exact transpose_good ih h
  | broadcast _ ht h ih => exact broadcast_good ih ht h
  | fold _ h ih => exact fold_good ih h
  | flatten _ h ih => exact flatten_good ih h
  | rename _ h ih => exact rename_good ih h
  | asConst _ ih =>
    obtain ⟨h1, h2, _⟩ := ih
    exact ⟨h1, h2, by simp [View.asConst]⟩
  | squeeze _ h ih => exact squeeze_good ih h

/-- **C04** (in bounds): every view derived by any sequence of slicing, transposing,
broadcasting, folding, flattening, renaming and squeezing stays within the buffer. -/
theorem C04_views_in_bounds {n : Int} {v : View} (h : ViewOf n v) (c : Dim → Int)
    (hc : InDims v.dims c) : 0 ≤ v.addr c ∧ v.addr c < n :=
  (viewOf_good h).2.1 c hc

/-- **C07** (protection): in every view derived by any sequence of view operations, if two
different coordinates refer to the same element, the view is read-only. -/
theorem C07_shared_elements_readonly {n : Int} {v : View} (h : ViewOf n v) (c c' : Dim → Int)
    (hc : InDims v.dims c) (hc' : InDims v.dims c') (he : v.addr c = v.addr c')
    (d : Dim) (hd : d ∈ labels v.dims) (hne : c d ≠ c' d) : v.readonly = true := by
  cases hr : v.readonly with
  | true => rfl
  | false => exact absurd ((viewOf_good h).2.2 hr c c' hc hc' he d hd) hne

/-- Invariant used by the above: unique labels, one non-negative stride per dimension. -/
theorem viewOf_WF {n : Int} {v : View} (h : ViewOf n v) : v.WF := (viewOf_good h).1

/-- A derived view: fold, slice with step, transpose, broadcast of a 12-element buffer. -/
example : ViewOf 12 ⟨[(4, 2), (7, 3), (5, 3)], [2, 0, 4], 1, true⟩ := by
  have h0 : ViewOf 12 (View.fresh [(3, 12)]) := .fresh (by simp [Sizes.WF]) (by decide)
  have h1 : ViewOf 12 ⟨[(5, 3), (4, 4)], [4, 1], 0, false⟩ := .fold (t := [(5, 3), (4, 4)]) (d := 3) h0 (by decide)
  have h2 : ViewOf 12 ⟨[(5, 3), (4, 2)], [4, 2], 1, false⟩ :=
    .slice (p := ⟨4, 1, 4, 2⟩) h1 (.inl (by decide)) (by decide)
  have h3 : ViewOf 12 ⟨[(4, 2), (5, 3)], [2, 4], 1, false⟩ := .transpose (o := [4, 5]) h2 (by decide)
  exact .broadcast (t := [(4, 2), (7, 3), (5, 3)]) h3 (by simp [Sizes.WF]) (by decide)

end Scipp.Props
