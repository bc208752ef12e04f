import Verif.Model.Squeeze
import Verif.Spec.Squeeze
import Verif.Lemmas.Dataset
import Verif.Lemmas.Masks3
import Verif.Props.SizedDict
/-! Lemmas about squeezing. -/
namespace Scipp
open Sizes Props

/-- The slice `{x, 0}`. -/
abbrev at0 (x : Dim) : Slice := ⟨x, 0, -1, 1⟩

theorem at0_constructed (x : Dim) : (at0 x).Constructed := .inr (by simp [Slice.point])

theorem at0_ne_none (x : Dim) : at0 x ≠ Slice.none := (at0_constructed x).ne_none

/-- Extents are unique. -/
theorem extent_unique {s : Sizes} (h : WF s) {x : Dim} {n m : Int} (hn : (x, n) ∈ s) (hm : (x, m) ∈ s) : n = m := by
  have h1 := at?_of_mem h.1 hn
  rw [at?_of_mem h.1 hm] at h1
  injection h1 with h1
  exact h1.symm

theorem sizes_slice0 {s : Sizes} (hw : WF s) {x : Dim} {n : Int} (hx : (x, n) ∈ s) (hn : 0 < n) :
    ∃ s', Sizes.slice s (at0 x) = .ok s' ∧ ∀ p, p ∈ s' ↔ p ∈ s ∧ p.1 ≠ x := by
  have hv : validSlice s (at0 x) = .ok () := (validSlice_iff (at0_ne_none x) hw.1).2 ⟨n, hx, by simp; omega⟩
  have : ∃ s', Sizes.slice s (at0 x) = .ok s' := by
    simp only [Sizes.slice, hv, bind, Except.bind]
    rw [if_neg (at0_ne_none x), if_neg (by simp [Slice.isRange])]
    exact ⟨_, erase_eq_filter hw.1 (mem_labels hx)⟩
  obtain ⟨s', h⟩ := this
  exact ⟨s', h, (mem_slice_point hw.1 h (at0_ne_none x)).2⟩

theorem SqueezedTo.mem {ds : List Dim} {v v' : View} (h : SqueezedTo ds v v') (x : Dim) (n : Int) :
    (x, n) ∈ v'.dims ↔ (x, n) ∈ v.dims ∧ ¬ (x ∈ ds ∧ n = 1) := by
  rw [h.1, List.mem_filter, decide_eq_true_eq]

/-- Dims with the same labels in the same order and the same extents. -/
theorem dims_ext : ∀ {l l' : Dims}, (labels l).Nodup → labels l = labels l' → (∀ p ∈ l, p ∈ l') → l = l'
  | [], [], _, _, _ => rfl
  | [], _ :: _, _, h, _ => by simp [labels] at h
  | _ :: _, [], _, h, _ => by simp [labels] at h
  | (a, n) :: l, (b, m) :: l', hn, h, hm => by
    simp only [labels, List.map_cons, List.cons.injEq] at h
    obtain ⟨rfl, h⟩ := h
    simp only [labels, List.map_cons, List.nodup_cons] at hn
    have hnot : ∀ k, (a, k) ∉ l' := fun k hk => hn.1 (h ▸ List.mem_map_of_mem (f := Prod.fst) hk)
    have h1 : n = m := by
      rcases List.mem_cons.1 (hm (a, n) (by simp)) with e | e
      · injection e
      · exact absurd e (hnot n)
    subst h1
    rw [dims_ext hn.2 h (fun p hp => ?_)]
    rcases List.mem_cons.1 (hm p (by simp [hp])) with e | e
    · exact absurd (List.mem_map_of_mem (f := Prod.fst) (e ▸ hp)) hn.1
    · exact e

theorem SqueezedTo.refl {v : View} : SqueezedTo [] v v := ⟨by simp, fun c => by simp⟩

theorem SqueezedTo.comp {x : Dim} {ds : List Dim} {u v w : View} (h1 : SqueezedTo [x] u v) (h2 : SqueezedTo ds v w) : SqueezedTo (x :: ds) u w := by
  refine ⟨?_, fun c => ?_⟩
  · rw [h2.1, h1.1, List.filter_filter]
    refine List.filter_congr fun p _ => ?_
    rw [← Bool.decide_and]
    refine decide_eq_decide.2 ?_
    simp only [List.mem_singleton, List.mem_cons]
    tauto
  · rw [h2.2, h1.2]
    congr 1
    funext z
    by_cases hz : z = x
    · subst hz
      by_cases hm : (z, 1) ∈ u.dims <;> simp [hm, h1.mem]
    · simp [hz, h1.mem]

/-- Slicing a variable. -/
theorem slice0_squeezed {v v' : View} {x : Dim} (hw : v.WF) (hx : (x, 1) ∈ v.dims) (h : v.slice (at0 x) = .ok v') : SqueezedTo [x] v v' := by
  obtain ⟨h1, h2, h3, -⟩ := C04_point_slice v v' x 0 1 hw (at0_constructed x) h
  refine ⟨?_, fun c => ?_⟩
  · have hf : v.dims.filter (fun p => decide (¬ (p.1 ∈ [x] ∧ p.2 = 1))) = v.dims.filter (fun p => decide (p.1 ≠ x)) := by
      refine List.filter_congr fun p hp => decide_eq_decide.2 (not_congr ?_)
      simp only [List.mem_singleton]
      exact ⟨And.left, fun e => ⟨e, extent_unique hw.1 hp (e ▸ hx)⟩⟩
    rw [hf]
    refine dims_ext (View.slice_wf hw (at0_constructed x) h).1.1 ?_ (fun p hp => ?_)
    · rw [h1]
      unfold labels
      rw [List.filter_map]
      rfl
    · have := (h2 p.1 p.2).1 hp
      exact List.mem_filter.2 ⟨this.1, by simpa using this.2⟩
  · rw [h3]
    congr 1
    funext z
    unfold upd
    by_cases hz : z = x <;> simp [hz, hx]

theorem forall₂_left {α β : Type} {R : α → β → Prop} {l : List α} {l' : List β} (h : List.Forall₂ R l l')
    {a : α} (ha : a ∈ l) : ∃ b ∈ l', R a b := by
  induction h with
  | nil => simp at ha
  | cons h _ ih =>
    rcases List.mem_cons.1 ha with rfl | ha
    · exact ⟨_, by simp, h⟩
    · obtain ⟨b, hb, hR⟩ := ih ha
      exact ⟨b, by simp [hb], hR⟩

theorem fits_one {s : Sizes} (hs : WF s) {dims : Dims} {x : Dim} {n : Int} (hf : Fits s dims) (hx : (x, 1) ∈ s) (hn : (x, n) ∈ dims) : n = 1 ∨ n = 2 := by
  obtain ⟨e, h1, h2⟩ := hf
  by_cases he : x = e
  · subst he
    rcases h2 n hn with k | ⟨m, hm, k⟩ | ⟨k, -⟩
    · exact .inl (extent_unique hs k hx)
    · have := extent_unique hs hm hx
      right; omega
    · exact absurd (mem_labels hx) k
  · exact .inl (extent_unique hs (h1 x n hn he) hx)

theorem dict_step {d : SizedDict} {x : Dim} (hd : d.Ok) (hx : (x, 1) ∈ d.sizes) :
    ∃ d', d.slice (at0 x) = .ok d' ∧ d'.Ok ∧ (∀ p, p ∈ d'.sizes ↔ p ∈ d.sizes ∧ p.1 ≠ x) ∧ DictTo [x] d d' ∧
      ∀ k e e', (k, e) ∈ d.items → (k, e') ∈ d'.items → e'.aligned = e.aligned := by
  obtain ⟨s', hs, hm⟩ := sizes_slice0 hd.1 hx (by decide)
  have hp := at0_constructed x
  obtain ⟨d', h, h1, h2⟩ := C44_slice_succeeds d (at0 x) s' hd hp hs (.inl rfl)
  have hd' := slice_Ok hd hp h
  refine ⟨d', h, hd', by rw [h1]; exact hm, ⟨h2, fun k e hk => ?_⟩, fun k e e' hk hk' => ?_⟩
  · obtain ⟨e', g1, g2, g3, g4, g5⟩ := C44_no_edges d d' (at0 x) k e hd hp h hk
    refine ⟨e', g1, g2, ?_⟩
    have hE := hd.2.2 _ hk
    by_cases hc : x ∈ labels e.dims
    · obtain ⟨n, hn⟩ := mem_of_labels hc
      rcases fits_one hd.1 hE.2.2 hx hn with rfl | rfl
      · exact slice0_squeezed hE.1 hn (g4 1 hx hn)
      · obtain ⟨e2, n', q1, q2, q3, q4, -, q6⟩ := C44_edges d d' (at0 x) k e 1 hd hp h hk hx hn
        have : e2 = e' := by
          have := lookup_of_mem hd'.2.1 q1
          rw [lookup_of_mem hd'.2.1 g1] at this
          injection this with this
          exact this.symm
        subst this
        have hE' := hd'.2.2 _ q1
        simp only [if_true] at q3
        subst q3
        have hlab : labels e2.dims = labels e.dims := by
          obtain ⟨b, hb, hb1, hb2⟩ := forall₂_left ((slice_iff hd hp hs).1 d' h).2.2 hk
          obtain ⟨k', e3⟩ := b
          simp only at hb1 hb2
          subst hb1
          have : e3 = e2 := by
            have := lookup_of_mem hd'.2.1 hb
            rw [lookup_of_mem hd'.2.1 g1] at this
            injection this with this
            exact this.symm
          subst this
          unfold sliceEntry at hb2
          rw [if_pos ((contains_iff).2 hc), at?_of_mem hE.1.1.1 hn, at?_of_mem hd.1.1 hx] at hb2
          simp only [edgeSlice] at hb2
          norm_num at hb2
          rw [show Slice.range x 0 2 = .ok ⟨x, 0, 2, 1⟩ from rfl] at hb2
          dsimp only at hb2
          cases hv : e.view.slice ⟨x, 0, 2, 1⟩ with
          | error err => rw [hv] at hb2; cases hb2
          | ok w =>
            rw [hv] at hb2
            cases hb2
            exact (C04_range_slice e.view w x 0 2 1 hE.1 (.inl (by simp [Slice.range])) (by decide) hv).1
        have hmem : ∀ p ∈ e2.dims, p ∈ e.dims := by
          rintro ⟨y, m⟩ hm'
          by_cases hy : y = x
          · subst hy
            have := extent_unique hE'.1.1 hm' q2
            subst this
            exact hn
          · exact (q6 y m hy).1 hm'
        have hsame := dims_ext hE'.1.1.1 hlab hmem
        refine ⟨?_, fun c => ?_⟩
        · have : ∀ p ∈ e.view.dims, decide (¬ (p.1 ∈ [x] ∧ p.2 = 1)) = true := fun p hp' => by
            simp only [List.mem_singleton, decide_eq_true_eq]
            rintro ⟨h1', h2'⟩
            have := extent_unique hE.1.1 hp' (h1' ▸ hn)
            omega
          rw [List.filter_eq_self.2 this]
          exact hsame
        · rw [q4]
          congr 1
          funext z
          unfold upd
          by_cases hz : z = x
          · subst hz
            have : ¬ (z, (1 : Int)) ∈ e2.dims := fun h => by
              have := extent_unique hE'.1.1 h q2; omega
            have : ¬ (z, (1 : Int)) ∈ e.view.dims := fun h => by
              have := extent_unique hE.1.1 h hn; omega
            simp [this]
          · simp [hz]
    · rw [g5 hc]
      refine ⟨?_, fun c => ?_⟩
      · refine (List.filter_eq_self.2 fun p hp' => ?_).symm
        simp only [List.mem_singleton, decide_eq_true_eq]
        exact fun hh => hc (hh.1 ▸ mem_labels hp')
      · have : (fun z => if z ∈ [x] ∧ (z, 1) ∈ e.view.dims then 0 else c z) = c := by
          funext z
          rw [if_neg]
          rintro ⟨h1, h2⟩
          rw [List.mem_singleton] at h1
          exact hc (h1 ▸ mem_labels h2)
        rw [this]
        rfl
  · obtain ⟨e2, g1, -, g3, -⟩ := C44_no_edges d d' (at0 x) k e hd hp h hk
    have := lookup_of_mem hd'.2.1 hk'
    rw [lookup_of_mem hd'.2.1 g1] at this
    injection this with this
    rw [← this, g3]

theorem align_fold (d : SizedDict) (p : Slice) : ∀ (l : List (Dim × Entry)) (c : SizedDict), c.readonly = false → (∀ q ∈ l, q.1 ∈ c.items.map Prod.fst) →
    ∃ c', l.foldlM (d.alignStep p) c = .ok c' ∧ c'.items.map Prod.fst = c.items.map Prod.fst ∧ c'.sizes = c.sizes
  | [], c, _, _ => ⟨c, rfl, rfl, rfl⟩
  | q :: l, c, hr, hk => by
    have : ∃ c1, d.alignStep p c q = .ok c1 ∧ c1.readonly = false ∧ c1.items.map Prod.fst = c.items.map Prod.fst ∧ c1.sizes = c.sizes := by
      unfold SizedDict.alignStep
      split
      · unfold SizedDict.setAligned
        rw [if_neg (by simp [hr])]
        have hq := hk q (by simp)
        cases hl : lookupEntry c.items q.1 with
        | none => exact absurd hq (lookup_none.1 hl)
        | some e => exact ⟨_, rfl, hr, by rw [insert_keys, if_pos hq], rfl⟩
      · exact ⟨c, rfl, hr, rfl, rfl⟩
    obtain ⟨c1, h1, h2, h3, h4⟩ := this
    obtain ⟨c', g1, g2, g3⟩ := align_fold d p l c1 h2 (fun q' hq' => h3 ▸ hk q' (by simp [hq']))
    exact ⟨c', by rw [List.foldlM_cons, h1]; exact g1, g2.trans h3, g3.trans h4⟩

theorem coords_step {d : SizedDict} {x : Dim} (hd : d.Ok) (hx : (x, 1) ∈ d.sizes) (hxi : x ≠ Dim.invalid) (hi : ∀ q ∈ d.items, Dim.invalid ∉ labels q.2.dims) :
    ∃ d', d.sliceCoords (at0 x) = .ok d' ∧ d'.Ok ∧ (∀ p, p ∈ d'.sizes ↔ p ∈ d.sizes ∧ p.1 ≠ x) ∧ DictTo [x] d d' ∧
      ∀ k e e', (k, e) ∈ d.items → (k, e') ∈ d'.items → (e'.aligned = true ↔ e.aligned = true ∧ ¬ LabelsDim d.sizes k e.dims x) := by
  obtain ⟨s, h1, h2, h3, h4, h5⟩ := dict_step hd hx
  have hp := at0_constructed x
  obtain ⟨c, g1, g2, g3⟩ := align_fold d (at0 x) d.items { s with readonly := false } rfl
    (fun q hq => by show q.1 ∈ s.items.map Prod.fst; rw [h4.1]; exact List.mem_map_of_mem hq)
  have hc : d.sliceCoords (at0 x) = .ok { c with readonly := true } := by
    unfold SizedDict.sliceCoords
    rw [h1]
    dsimp only
    rw [g1]
  have hc' := sliceCoords_Ok hd hp hc
  refine ⟨_, hc, hc', fun p => by show p ∈ c.sizes ↔ _; rw [g3]; exact h3 p, ⟨g2.trans h4.1, fun k e hk => ?_⟩, fun k e e' hk hk' => ?_⟩
  · obtain ⟨s', e0, e', q1, q2, q3, q4, q5, -⟩ := C44_alignment d _ (at0 x) k e hd hp hxi (at0_ne_none x) (hi _ hk) hc hk
    obtain ⟨e1, r1, r2, r3⟩ := h4.2 k e hk
    rw [h1] at q1
    cases q1
    have : e1 = e0 := by
      have := lookup_of_mem h2.2.1 r1
      rw [lookup_of_mem h2.2.1 q2] at this
      injection this with this
      exact this.symm
    subst this
    exact ⟨e', q3, q5.trans r2, q4 ▸ r3⟩
  · obtain ⟨s', e0, e2, -, -, q3, -, -, q6⟩ := C44_alignment d _ (at0 x) k e hd hp hxi (at0_ne_none x) (hi _ hk) hc hk
    have : e2 = e' := by
      have := lookup_of_mem hc'.2.1 q3
      rw [lookup_of_mem hc'.2.1 hk'] at this
      injection this with this
      exact this.symm
    subst this
    rw [q6]
    simp

theorem edges_step {s s' : Sizes} (hs : WF s) {x : Dim} (hx : (x, 1) ∈ s) (hs' : ∀ p, p ∈ s' ↔ p ∈ s ∧ p.1 ≠ x) {v v' : View} (hf : Fits s v.dims)
    (h : SqueezedTo [x] v v') (y : Dim) : EdgesAlong s' v'.dims y ↔ EdgesAlong s v.dims y := by
  unfold EdgesAlong
  have hl : ∀ z, z ∈ labels s' ↔ z ∈ labels s ∧ z ≠ x := by
    intro z
    unfold labels
    simp only [List.mem_map]
    constructor
    · rintro ⟨p, hp, rfl⟩
      exact ⟨⟨p, ((hs' p).1 hp).1, rfl⟩, ((hs' p).1 hp).2⟩
    · rintro ⟨⟨p, hp, rfl⟩, hz⟩
      exact ⟨p, (hs' p).2 ⟨hp, hz⟩, rfl⟩
  refine exists_congr fun n => ?_
  rw [h.mem]
  simp only [hs', hl, List.mem_singleton]
  by_cases hy : y = x
  · subst hy
    constructor
    · rintro ⟨⟨h1, h2⟩, -⟩
      refine ⟨h1, .inl ⟨1, hx, ?_⟩⟩
      rcases fits_one hs hf hx h1 with rfl | rfl
      · exact absurd ⟨rfl, rfl⟩ h2
      · rfl
    · rintro ⟨h1, ⟨m, hm, rfl⟩ | ⟨h2, -⟩⟩
      · have := extent_unique hs hm hx
        subst this
        exact ⟨⟨h1, by simp⟩, .inr ⟨by simp, rfl⟩⟩
      · exact absurd (mem_labels hx) h2
  · simp [hy]

theorem labels_step {s s' : Sizes} (hs : WF s) {x : Dim} (hx : (x, 1) ∈ s) (hs' : ∀ p, p ∈ s' ↔ p ∈ s ∧ p.1 ≠ x) {v v' : View} (hw : v.WF) (hf : Fits s v.dims)
    (h : SqueezedTo [x] v v') (k : Dim) (ds : List Dim) (hxd : x ∉ ds) :
    LabelsSqueezed s k v.dims (x :: ds) ↔ LabelsDim s k v.dims x ∨ LabelsSqueezed s' k v'.dims ds := by
  have he := edges_step hs hx hs' hf h
  have hl : ∀ z, z ≠ x → (z ∈ labels v'.dims ↔ z ∈ labels v.dims) := by
    intro z hz
    unfold labels
    simp only [List.mem_map]
    constructor
    · rintro ⟨p, hp, rfl⟩
      exact ⟨p, ((h.mem _ _).1 hp).1, rfl⟩
    · rintro ⟨p, hp, rfl⟩
      exact ⟨p, (h.mem _ _).2 ⟨hp, by simp [hz]⟩, rfl⟩
  have hxe : x ∈ labels v.dims → EdgesAlong s v.dims x ∨ x ∉ labels v'.dims := by
    intro hxl
    obtain ⟨n, hn⟩ := mem_of_labels hxl
    rcases fits_one hs hf hx hn with rfl | rfl
    · right
      intro hx'
      obtain ⟨m, hm⟩ := mem_of_labels hx'
      have := (h.mem _ _).1 hm
      exact this.2 ⟨by simp, extent_unique hw.1 this.1 hn⟩
    · exact .inl ⟨2, hn, .inl ⟨1, hx, rfl⟩⟩
  have hsub : ∀ z, z ∈ labels v'.dims → z ∈ labels v.dims := by
    intro z hz
    obtain ⟨m, hm⟩ := mem_of_labels hz
    exact mem_labels ((h.mem _ _).1 hm).1
  unfold LabelsSqueezed LabelsDim
  simp only [he]
  constructor
  · rintro ⟨y, hy, hyl, hc⟩
    by_cases hyx : y = x
    · subst hyx
      rcases hc with hall | hed | hk
      · rcases hxe hyl with h1 | h1
        · exact .inl ⟨hyl, .inr (.inl h1)⟩
        · by_cases hemp : ∃ z, z ∈ labels v'.dims
          · obtain ⟨z, hz⟩ := hemp
            have hzy : ∀ z, z ∈ labels v'.dims → z ∈ ds := fun z hz =>
              ((List.mem_cons.1 (hall z (hsub z hz))).resolve_left (fun e => h1 (e ▸ hz)))
            exact .inr ⟨z, hzy z hz, hz, .inl hzy⟩
          · left
            refine ⟨hyl, .inl ?_⟩
            have hone : ∀ z ∈ labels v.dims, z = y := fun z hz => by
              by_contra hzy
              exact hemp ⟨z, (hl z hzy).2 hz⟩
            have hnd := hw.1.1
            have hlen : (labels v.dims).length = v.dims.length := by simp [labels]
            rw [← hlen]
            generalize labels v.dims = l at *
            match l, hyl, hone, hnd with
            | [a], _, _, _ => rfl
            | a :: b :: r, _, hone, hnd =>
              have h1 := hone a (by simp)
              have h2 := hone b (by simp)
              rw [h1, h2] at hnd
              simp at hnd
      · exact .inl ⟨hyl, .inr (.inl hed)⟩
      · exact .inl ⟨hyl, .inr (.inr hk)⟩
    · have hyd := (List.mem_cons.1 hy).resolve_left hyx
      rcases hc with hall | hc
      · by_cases hx' : x ∈ labels v'.dims
        · rcases hxe (hsub x hx') with h1 | h1
          · exact .inl ⟨hsub x hx', .inr (.inl h1)⟩
          · exact absurd hx' h1
        · refine .inr ⟨y, hyd, (hl y hyx).2 hyl, .inl fun z hz => ?_⟩
          exact (List.mem_cons.1 (hall z (hsub z hz))).resolve_left (fun e => hx' (e ▸ hz))
      · exact .inr ⟨y, hyd, (hl y hyx).2 hyl, .inr hc⟩
  · rintro (⟨hxl, h1 | h1⟩ | ⟨y, hyd, hyl, hc⟩)
    · refine ⟨x, by simp, hxl, .inl fun z hz => ?_⟩
      have hlen : (labels v.dims).length = 1 := by simpa [labels] using h1
      obtain ⟨a, ha⟩ := List.length_eq_one_iff.1 hlen
      rw [ha] at hxl hz
      simp only [List.mem_singleton] at hxl hz
      rw [hz, ← hxl]
      simp
    · exact ⟨x, by simp, hxl, .inr h1⟩
    · refine ⟨y, by simp [hyd], hsub y hyl, ?_⟩
      rcases hc with hall | hc
      · refine .inl fun z hz => ?_
        by_cases hzx : z = x
        · simp [hzx]
        · exact List.mem_cons_of_mem _ (hall z ((hl z hzx).2 hz))
      · exact .inr hc

theorem setSizes_same {d : SizedDict} {s : Sizes} (hd : d.Ok) (hs : WF s) (h : SameSizes d.sizes s) :
    d.setSizes s = .ok { d with sizes := s } ∧ SizedDict.Ok { d with sizes := s } := by
  refine ⟨?_, hs, hd.2.1, fun p hp => hd.same h hp⟩
  unfold SizedDict.setSizes
  rw [if_pos ((includes_iff hs.1 hd.1.1).2 fun p hp => (h p).1 hp)]

theorem edges_same {s s' : Sizes} (h : SameSizes s s') (dims : Dims) (x : Dim) : EdgesAlong s dims x ↔ EdgesAlong s' dims x := by
  unfold EdgesAlong
  refine exists_congr fun n => and_congr_right fun _ => or_congr ?_ ?_
  · exact exists_congr fun m => by rw [h (x, m)]
  · rw [h.labels x]

theorem labelsDim_same {s s' : Sizes} (h : SameSizes s s') (k : Dim) (dims : Dims) (x : Dim) : LabelsDim s k dims x ↔ LabelsDim s' k dims x := by
  unfold LabelsDim
  simp only [edges_same h]

theorem view_slice0 {v : View} {x : Dim} (hw : v.WF) (hx : (x, 1) ∈ v.dims) : ∃ v', v.slice (at0 x) = .ok v' :=
  (C04_slice_accepts_iff v (at0 x) hw (at0_constructed x)).1.2 ⟨1, hx, by simp⟩

/-- One step. -/
theorem array_step {a : DArray} {x : Dim} (ha : a.Ok) (hx : (x, 1) ∈ a.data.dims) (hxi : x ≠ Dim.invalid)
    (hi : ∀ q ∈ a.coords.items, Dim.invalid ∉ labels q.2.dims) :
    ∃ a', a.slice (at0 x) = .ok a' ∧ a'.Ok ∧
      (a'.data.obj = a.data.obj ∧ a'.data.aligned = a.data.aligned ∧ a'.data.binned = a.data.binned ∧ SqueezedTo [x] a.data.view a'.data.view) ∧
      (∀ p, p ∈ a'.data.dims ↔ p ∈ a.data.dims ∧ p.1 ≠ x) ∧
      DictTo [x] a.coords a'.coords ∧ DictTo [x] a.masks a'.masks ∧ DictTo [x] a.attrs a'.attrs ∧
      (∀ k e e', (k, e) ∈ a.coords.items → (k, e') ∈ a'.coords.items → (e'.aligned = true ↔ e.aligned = true ∧ ¬ LabelsDim a.data.dims k e.dims x)) ∧
      (∀ k e e', (k, e) ∈ a.masks.items → (k, e') ∈ a'.masks.items → e'.aligned = e.aligned) ∧
      (∀ k e e', (k, e) ∈ a.attrs.items → (k, e') ∈ a'.attrs.items → e'.aligned = e.aligned) := by
  obtain ⟨v, hv⟩ := view_slice0 ha.data hx
  have hvw := View.slice_wf ha.data (at0_constructed x) hv
  have hvd : ∀ p, p ∈ v.dims ↔ p ∈ a.data.dims ∧ p.1 ≠ x :=
    fun p => (C04_point_slice _ v x 0 1 ha.data (at0_constructed x) hv).2.1 p.1 p.2
  obtain ⟨c, c1, c2, c3, c4, c5⟩ := coords_step ha.coords.1 ((ha.coords.2 _).2 hx) hxi hi
  obtain ⟨m, m1, m2, m3, m4, m5⟩ := dict_step ha.masks.1 ((ha.masks.2 _).2 hx)
  obtain ⟨t, t1, t2, t3, t4, t5⟩ := dict_step ha.attrs.1 ((ha.attrs.2 _).2 hx)
  have hcs : SameSizes c.sizes v.dims := fun p => by rw [c3, hvd, ha.coords.2 p]
  have hms : SameSizes m.sizes v.dims := fun p => by rw [m3, hvd, ha.masks.2 p]
  have hts : SameSizes t.sizes v.dims := fun p => by rw [t3, hvd, ha.attrs.2 p]
  obtain ⟨c6, c7⟩ := setSizes_same c2 hvw.1 hcs
  obtain ⟨m6, m7⟩ := setSizes_same m2 hvw.1 hms
  obtain ⟨t6, t7⟩ := setSizes_same t2 hvw.1 hts
  refine ⟨⟨{ a.data with view := v }, { c with sizes := v.dims }, { m with sizes := v.dims }, { t with sizes := v.dims }⟩, ?_, ?_, ?_, hvd, c4, m4, t4, ?_, m5, t5⟩
  · unfold DArray.slice
    simp only [hv, c1, m1, t1, c6, m6, t6, bind, Except.bind]
    rfl
  · exact ⟨hvw, ⟨c7, .rfl'⟩, ⟨m7, .rfl'⟩, ⟨t7, .rfl'⟩⟩
  · exact ⟨rfl, rfl, rfl, slice0_squeezed ha.data hx hv⟩
  · intro k e e' h1 h2
    rw [← labelsDim_same ha.coords.2]
    exact c5 k e e' h1 h2

theorem DictTo.comp {x : Dim} {ds : List Dim} {c d e : SizedDict} (h1 : DictTo [x] c d) (h2 : DictTo ds d e) : DictTo (x :: ds) c e := by
  refine ⟨h2.1.trans h1.1, fun k q hq => ?_⟩
  obtain ⟨q1, a1, a2, a3⟩ := h1.2 k q hq
  obtain ⟨q2, b1, b2, b3⟩ := h2.2 k q1 a1
  exact ⟨q2, b1, b2.trans a2, a3.comp b3⟩

theorem entry_unique {d : SizedDict} (hd : d.Ok) {k : Dim} {e e' : Entry} (h : (k, e) ∈ d.items) (h' : (k, e') ∈ d.items) : e = e' := by
  have := lookup_of_mem hd.2.1 h
  rw [lookup_of_mem hd.2.1 h'] at this
  injection this with this
  exact this.symm

theorem array_fold : ∀ (ds : List Dim) {a : DArray}, a.Ok → ds.Nodup → (∀ x ∈ ds, (x, 1) ∈ a.data.dims) → Dim.invalid ∉ ds →
    (∀ q ∈ a.coords.items, Dim.invalid ∉ labels q.2.dims) → ∃ a', ds.foldlM (fun a d => a.slice (at0 d)) a = .ok a' ∧ ArrayTo ds a a'
  | [], a, ha, _, _, _, _ => by
    have hd : ∀ d : SizedDict, DictTo [] d d := fun d => ⟨rfl, fun k e hk => ⟨e, hk, rfl, .refl⟩⟩
    refine ⟨a, rfl, ha, ⟨rfl, rfl, rfl, .refl⟩, hd _, hd _, hd _, fun k e e' h h' => ?_, fun k e e' h h' => ?_, fun k e e' h h' => ?_⟩
    · rw [entry_unique ha.coords.1 h h']
      unfold LabelsSqueezed
      simp
    · rw [entry_unique ha.masks.1 h h']
    · rw [entry_unique ha.attrs.1 h h']
  | x :: ds, a, ha, hn, hx, hxi, hi => by
    obtain ⟨hxd, hn⟩ := List.nodup_cons.1 hn
    obtain ⟨a1, s1, s2, s3, s4, s5, s6, s7, s8, s9, s10⟩ := array_step ha (hx x (by simp)) (fun e => hxi (by simp [e])) hi
    obtain ⟨a', t1, t2⟩ := array_fold ds s2 hn (fun y hy => (s4 _).2 ⟨hx y (by simp [hy]), fun e => hxd (e ▸ hy)⟩) (fun h => hxi (by simp [h])) (by
      rintro ⟨k, e1⟩ hq hl
      have hk : k ∈ a.coords.items.map Prod.fst := s5.1 ▸ List.mem_map_of_mem (f := Prod.fst) hq
      obtain ⟨⟨k', e⟩, he, rfl⟩ := List.mem_map.1 hk
      obtain ⟨e2, g1, -, g3⟩ := s5.2 _ e he
      rw [entry_unique s2.coords.1 hq g1] at hl
      obtain ⟨n, hn⟩ := mem_of_labels hl
      exact hi _ he (mem_labels ((g3.mem _ _).1 hn).1))
    refine ⟨a', by rw [List.foldlM_cons, s1]; exact t1, t2.ok, ?_, s5.comp t2.coords, s6.comp t2.masks, s7.comp t2.attrs, ?_, ?_, ?_⟩
    · exact ⟨t2.data.1.trans s3.1, t2.data.2.1.trans s3.2.1, t2.data.2.2.1.trans s3.2.2.1, s3.2.2.2.comp t2.data.2.2.2⟩
    · intro k e e' h h'
      obtain ⟨e1, g1, g2, g3⟩ := s5.2 k e h
      have hE := ha.coords.1.2.2 _ h
      rw [t2.aligned k e1 e' g1 h', s8 k e e1 h g1,
        labels_step ha.data.1 (hx x (by simp)) s4 hE.1 (hE.2.2.same ha.coords.2) g3 k ds hxd]
      tauto
    · intro k e e' h h'
      obtain ⟨e1, g1, g2, g3⟩ := s6.2 k e h
      rw [t2.masksAligned k e1 e' g1 h', s9 k e e1 h g1]
    · intro k e e' h h'
      obtain ⟨e1, g1, g2, g3⟩ := s7.2 k e h
      rw [t2.attrsAligned k e1 e' g1 h', s10 k e e1 h g1]

theorem view_fold : ∀ (ds : List Dim) {v v' : View}, v.WF → ds.foldlM (fun v d => v.slice (at0 d)) v = .ok v' → ds.Nodup ∧ ∀ d ∈ ds, d ∈ labels v.dims
  | [], _, _, _, _ => ⟨List.nodup_nil, fun _ h => nomatch h⟩
  | d :: ds, v, v', hw, h => by
    rw [List.foldlM_cons] at h
    cases h1 : v.slice (at0 d) with
    | error e => rw [h1] at h; cases h
    | ok v1 =>
      rw [h1] at h
      have hp := at0_constructed d
      obtain ⟨g1, -⟩ := C04_point_slice v v1 d 0 1 hw hp h1
      obtain ⟨k1, k2⟩ := view_fold ds (View.slice_wf hw hp h1) h
      obtain ⟨n, hn, -⟩ := (C04_slice_accepts_iff v _ hw hp).1.1 ⟨v1, h1⟩
      refine ⟨List.nodup_cons.2 ⟨fun hd => ?_, k1⟩, fun x hx => ?_⟩
      · have := k2 d hd
        rw [g1] at this
        simp at this
      · rcases List.mem_cons.1 hx with rfl | hx
        · exact mem_labels hn
        · have := k2 x hx
          rw [g1, List.mem_filter] at this
          exact this.1

theorem view_fold_ok : ∀ (ds : List Dim) {v : View}, v.WF → ds.Nodup → (∀ x ∈ ds, (x, 1) ∈ v.dims) →
    ∃ v', ds.foldlM (fun v d => v.slice (at0 d)) v = .ok v' ∧ v'.WF ∧ SqueezedTo ds v v'
  | [], v, hw, _, _ => ⟨v, rfl, hw, .refl⟩
  | x :: ds, v, hw, hn, hx => by
    obtain ⟨hxd, hn⟩ := List.nodup_cons.1 hn
    obtain ⟨v1, h1⟩ := view_slice0 hw (hx x (by simp))
    have hs := slice0_squeezed hw (hx x (by simp)) h1
    obtain ⟨v', g1, g2, g3⟩ := view_fold_ok ds (View.slice_wf hw (at0_constructed x) h1) hn (fun y hy =>
      (hs.mem _ _).2 ⟨hx y (by simp [hy]), fun e => hxd ((List.mem_singleton.1 e.1) ▸ hy)⟩)
    exact ⟨v', by rw [List.foldlM_cons, h1]; exact g1, g2, hs.comp g3⟩

theorem array_fold_view : ∀ (ds : List Dim) {a a' : DArray}, ds.foldlM (fun a d => a.slice (at0 d)) a = .ok a' →
    ds.foldlM (fun v d => v.slice (at0 d)) a.data.view = .ok a'.data.view
  | [], a, a', h => by cases h; rfl
  | x :: ds, a, a', h => by
    rw [List.foldlM_cons] at h ⊢
    cases h1 : a.slice (at0 x) with
    | error e => rw [h1] at h; cases h
    | ok a1 =>
      rw [h1] at h
      have : a.data.view.slice (at0 x) = .ok a1.data.view := by
        unfold DArray.slice at h1
        simp only [bind, Except.bind] at h1
        repeat' (split at h1)
        all_goals first
          | (cases h1; done)
          | (cases h1; assumption)
      rw [this]
      exact array_fold_view ds h

theorem dimsForSqueezing_some {dims : Dims} (hw : WF dims) (l : List Dim) :
    ((∀ d ∈ l, (d, 1) ∈ dims) → View.dimsForSqueezing dims (some l) = .ok l) ∧
    ((¬ ∀ d ∈ l, (d, 1) ∈ dims) → ∃ e, View.dimsForSqueezing dims (some l) = .error e) := by
  have key : ∀ m : List Dim, ((∀ d ∈ m, (d, 1) ∈ dims) → (forIn m PUnit.unit fun d _ => do
        let n ← Sizes.at? dims d
        if n ≠ 1 then .error .dimension else pure (ForInStep.yield PUnit.unit) : Except Err PUnit) = .ok PUnit.unit) ∧
      ((¬ ∀ d ∈ m, (d, 1) ∈ dims) → ∃ e, (forIn m PUnit.unit fun d _ => do
        let n ← Sizes.at? dims d
        if n ≠ 1 then .error .dimension else pure (ForInStep.yield PUnit.unit) : Except Err PUnit) = .error e) := by
    intro m
    induction m with
    | nil => exact ⟨fun _ => rfl, fun h => absurd (fun d hd => nomatch hd) h⟩
    | cons d m ih =>
      simp only [List.forIn_cons]
      by_cases hd : (d, 1) ∈ dims
      · rw [at?_of_mem hw.1 hd]
        simp only [List.mem_cons, forall_eq_or_imp, hd, true_and]
        exact ih
      · refine ⟨fun h => absurd (h d (by simp)) hd, fun _ => ?_⟩
        cases hs : Sizes.at? dims d with
        | error e => exact ⟨e, rfl⟩
        | ok n =>
          have : n ≠ 1 := by
            rintro rfl
            exact hd (at?_ok_mem hs)
          refine ⟨.dimension, ?_⟩
          show ((if n ≠ 1 then .error .dimension else pure (ForInStep.yield PUnit.unit) : Except Err (ForInStep PUnit)) >>= _) = _
          rw [if_pos this]
          rfl
  obtain ⟨h1, h2⟩ := key l
  unfold View.dimsForSqueezing
  simp only
  refine ⟨fun h => ?_, fun h => ?_⟩
  · have := h1 h
    simp only [bind, Except.bind] at this ⊢
    rw [this]
  · obtain ⟨e, he⟩ := h2 h
    simp only [bind, Except.bind] at he ⊢
    rw [he]
    exact ⟨e, rfl⟩

theorem dimsForSqueezing_none {dims : Dims} (hw : WF dims) : View.dimsForSqueezing dims none = .ok (squeezed dims none) := by
  show Except.ok _ = Except.ok _
  congr 1
  show (labels dims).filter _ = (dims.filter fun p => p.2 = 1).map Prod.fst
  unfold labels
  rw [List.filter_map]
  congr 1
  refine List.filter_congr fun p hp => decide_eq_decide.2 ?_
  rw [at?_of_mem hw.1 (show (p.1, p.2) ∈ dims from hp)]
  exact ⟨fun h => by injection h, fun h => by rw [h]⟩

end Scipp
