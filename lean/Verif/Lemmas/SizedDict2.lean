import Verif.Lemmas.SizedDict
/-! Slicing and renaming keep the entries of a dictionary fitting. -/
namespace Scipp
open Sizes

theorem mem_of_labels {s : Sizes} {d : Dim} (h : d ∈ labels s) : ∃ n, (d, n) ∈ s := by
  obtain ⟨x, hx⟩ := at?_ok_of_mem_labels h
  exact ⟨x, at?_ok_mem hx⟩

/-- Sizes and dims changed only at `x`, where the entry has the extent of the data. -/
theorem fits_same {sizes sizes' : Sizes} {dims dims' : Dims} {x : Dim} (hF : Fits sizes dims)
    (A : ∀ d k, d ≠ x → (d, k) ∈ sizes → (d, k) ∈ sizes') (B : ∀ d, d ∈ labels sizes' → d ∈ labels sizes)
    (C : ∀ d k, (d, k) ∈ dims' → d ≠ x → (d, k) ∈ dims) (D : ∀ k, (x, k) ∈ dims' → (x, k) ∈ sizes') :
    Fits sizes' dims' := by
  obtain ⟨e, h1, h2⟩ := hF
  refine ⟨e, ?_, ?_⟩
  · intro d n hd he
    by_cases hx : d = x
    · subst hx; exact D n hd
    · exact A _ _ hx (h1 d n (C _ _ hd hx) he)
  · intro n hn
    by_cases hx : e = x
    · subst hx; exact .inl (D n hn)
    · rcases h2 n (C _ _ hn hx) with h | ⟨m, hm, h⟩ | ⟨hl, h⟩
      · exact .inl (A _ _ hx h)
      · exact .inr (.inl ⟨m, A _ _ hx hm, h⟩)
      · exact .inr (.inr ⟨fun hm => hl (B _ hm), h⟩)

/-- Sizes and dims changed only at `x`, the only dimension that differs. -/
theorem fits_edge {sizes sizes' : Sizes} {dims dims' : Dims} {x : Dim}
    (hF : ∀ d n, (d, n) ∈ dims → d ≠ x → (d, n) ∈ sizes)
    (A : ∀ d k, d ≠ x → (d, k) ∈ sizes → (d, k) ∈ sizes')
    (C : ∀ d k, (d, k) ∈ dims' → d ≠ x → (d, k) ∈ dims)
    (D : ∀ n, (x, n) ∈ dims' → (x, n) ∈ sizes' ∨ (∃ m, (x, m) ∈ sizes' ∧ n = m + 1) ∨ (x ∉ labels sizes' ∧ n = 2)) :
    Fits sizes' dims' :=
  ⟨x, fun d n hd he => A _ _ he (hF d n (C _ _ hd he) he), D⟩

/-- What slicing does to sizes. -/
theorem sizes_slice_facts {s s' : Sizes} {p : Slice} (hn : (labels s).Nodup) (hp : p.Constructed)
    (h : Sizes.slice s p = .ok s') :
    (∃ m, (p.dim, m) ∈ s ∧ if p.stop = -1 then p.start < m else p.stop ≤ m) ∧
    (∀ d k, d ≠ p.dim → ((d, k) ∈ s' ↔ (d, k) ∈ s)) ∧ (∀ d, d ∈ labels s' → d ∈ labels s) ∧
    (p.stop ≠ -1 → ∀ k, (p.dim, k) ∈ s' ↔ k = sliceExtent p.start p.stop p.stride) ∧
    (p.stop = -1 → p.dim ∉ labels s') := by
  obtain ⟨h0, hst, hse⟩ := hp.spec
  have hne := hp.ne_none
  have hv : validSlice s p = .ok () := by
    unfold Sizes.slice at h
    simp only [bind, Except.bind] at h
    split at h
    · simp at h
    · assumption
  obtain ⟨m, hm, hle⟩ := (validSlice_iff hne hn).1 hv
  obtain ⟨d, b, e, st⟩ := p
  simp only at *
  by_cases he : e = -1
  · subst he
    obtain ⟨hd, hmem⟩ := mem_slice_point hn h hne
    refine ⟨⟨m, hm, by simp at hle ⊢; omega⟩, ?_, ?_, by simp, ?_⟩
    · intro d' k hd'; simp [hmem, hd']
    · intro d' hd'
      obtain ⟨k, hk⟩ := mem_of_labels hd'
      exact mem_labels ((hmem _).1 hk).1
    · intro _ hd'
      obtain ⟨k, hk⟩ := mem_of_labels hd'
      exact ((hmem _).1 hk).2 rfl
  · obtain ⟨hd, hmem⟩ := mem_slice_range hn he h hne
    have : ¬ e < 0 := by omega
    refine ⟨⟨m, hm, by rw [if_neg this] at hle; rw [if_neg he]; exact hle⟩, ?_, ?_, ?_, by simp [he]⟩
    · intro d' k hd'; simp [hmem, hd']
    · intro d' hd'
      obtain ⟨k, hk⟩ := mem_of_labels hd'
      rcases (hmem _).1 hk with h | h
      · exact mem_labels h.1
      · injection h with h1 h2; rw [h1]; exact hd
    · intro _ k; simp [hmem]

/-- The dimension along which an entry has bin edges is the only one that differs. -/
theorem fits_edges_at {sizes : Sizes} {dims : Dims} {x : Dim} {n m : Int} (hs : WF sizes) (hF : Fits sizes dims)
    (hn : (x, n) ∈ dims) (hm : (x, m) ∈ sizes) (hne : n ≠ m) :
    n = m + 1 ∧ ∀ d k, (d, k) ∈ dims → d ≠ x → (d, k) ∈ sizes := by
  obtain ⟨e, h1, h2⟩ := hF
  by_cases hx : x = e
  · subst hx
    refine ⟨?_, h1⟩
    rcases h2 n hn with h | ⟨m', hm', h⟩ | ⟨hl, _⟩
    · exact absurd (mem_unique hs.1 h hm) hne
    · rw [mem_unique hs.1 hm hm']; exact h
    · exact absurd (mem_labels hm) hl
  · exact absurd (mem_unique hs.1 (h1 x n hn hx) hm) hne

theorem edgeSlice_ok {p q : Slice} (hp : p.Constructed) (h : edgeSlice p = .ok q) :
    p.stride = 1 ∧ q.Constructed ∧
    q = ⟨p.dim, p.start, if p.stop = -1 then p.start + 2 else if p.start = p.stop then p.stop else p.stop + 1, 1⟩ := by
  obtain ⟨h0, hst, hse⟩ := hp.spec
  unfold edgeSlice at h
  split at h
  · simp at h
  · rename_i hs
    have hs : p.stride = 1 := by simpa using hs
    refine ⟨hs, ?_⟩
    generalize hx : (if p.stop = -1 then p.start + 2 else if p.start = p.stop then p.stop else p.stop + 1) = x at h ⊢
    have hq := h
    unfold Slice.range at h
    split at h
    · simp at h
    · split at h
      · simp at h
      · rw [if_neg (by decide), if_neg (by decide)] at h
        injection h with h
        subst h
        exact ⟨.inl hq, rfl⟩

theorem edgeSlice_exists {p : Slice} (hp : p.Constructed) (h : p.stride = 1) : ∃ q, edgeSlice p = .ok q := by
  obtain ⟨h0, hst, hse⟩ := hp.spec
  unfold edgeSlice Slice.range
  rw [if_neg (by simp [h])]
  rw [if_neg (by omega), if_neg (by split <;> (try split) <;> omega), if_neg (by decide), if_neg (by decide)]
  exact ⟨_, rfl⟩

theorem sliceEntry_of_not_mem {sizes : Sizes} {e : Entry} {p : Slice} (hp : p.Constructed)
    (hc : p.dim ∉ labels e.dims) : sliceEntry sizes p e = .ok { e with view := e.view.asConst } := by
  unfold sliceEntry
  rw [if_neg (by rw [contains_iff]; exact hc), if_neg hp.ne_none]

theorem sliceEntry_of_same {sizes : Sizes} {e : Entry} {p : Slice} {m : Int} (hs : WF sizes) (hw : e.view.WF)
    (hd : (p.dim, m) ∈ e.dims) (hm : (p.dim, m) ∈ sizes) :
    sliceEntry sizes p e = match e.view.slice p with
      | .error err => .error err
      | .ok view => .ok { e with view } := by
  unfold sliceEntry
  rw [if_pos (contains_iff.2 (mem_labels hd)), at?_of_mem hw.1.1 hd, at?_of_mem hs.1 hm]
  simp
  cases e.view.slice p <;> rfl

theorem sliceEntry_of_edges {sizes : Sizes} {e : Entry} {p : Slice} {n m : Int} (hs : WF sizes) (hw : e.view.WF)
    (hd : (p.dim, n) ∈ e.dims) (hm : (p.dim, m) ∈ sizes) (hne : n ≠ m) :
    sliceEntry sizes p e = match edgeSlice p with
      | .error err => .error err
      | .ok q => match e.view.slice q with
        | .error err => .error err
        | .ok view => .ok { e with view } := by
  unfold sliceEntry
  rw [if_pos (contains_iff.2 (mem_labels hd)), at?_of_mem hw.1.1 hd, at?_of_mem hs.1 hm]
  simp [hne]
  cases edgeSlice p with
  | error er => rfl
  | ok q => dsimp only; cases e.view.slice q <;> rfl

/-- Slicing one entry along with the data: the result fits the sliced data, and it can fail only for bin edges and a
stride. -/
theorem sliceEntry_spec {sizes sizes' : Sizes} {e : Entry} {p : Slice} (hs : WF sizes) (he : EntryOk sizes e)
    (hp : p.Constructed) (h : Sizes.slice sizes p = .ok sizes') :
    (∀ e', sliceEntry sizes p e = .ok e' → EntryOk sizes' e') ∧
    ((p.stride = 1 ∨ ∀ m, (p.dim, m) ∈ sizes → (p.dim, m + 1) ∉ e.dims) → ∃ e', sliceEntry sizes p e = .ok e') := by
  obtain ⟨hw, hb, hF⟩ := he
  obtain ⟨⟨m, hm, hle⟩, A, B, R, P⟩ := sizes_slice_facts hs.1 hp h
  obtain ⟨h0, hst, hse⟩ := hp.spec
  by_cases hc : p.dim ∈ labels e.dims
  · obtain ⟨n, hn⟩ := mem_of_labels hc
    by_cases hnm : n = m
    · subst hnm
      rw [sliceEntry_of_same hs hw hn hm]
      constructor
      · intro e' h'
        cases hv : e.view.slice p with
        | error er => rw [hv] at h'; simp at h'
        | ok v =>
          rw [hv] at h'
          injection h' with h'
          subst h'
          obtain ⟨_, A', B', R', P'⟩ := sizes_slice_facts hw.1.1 hp (View.slice_dims hv)
          refine ⟨View.slice_wf hw hp hv, hb, fits_same (x := p.dim) hF (fun d k hd => (A d k hd).2) B
            (fun d k hd hx => (A' d k hx).1 hd) ?_⟩
          intro k hk
          by_cases hr : p.stop = -1
          · exact absurd (mem_labels hk) (P' hr)
          · rw [R hr]; exact (R' hr k).1 hk
      · intro _
        obtain ⟨v, hv⟩ := (Props.C04_slice_accepts_iff e.view p hw hp).1.2 ⟨n, hn, hle⟩
        exact ⟨_, by rw [hv]⟩
    · rw [sliceEntry_of_edges hs hw hn hm hnm]
      obtain ⟨hnm1, hrest⟩ := fits_edges_at hs hF hn hm hnm
      constructor
      · intro e' h'
        cases hq : edgeSlice p with
        | error er => rw [hq] at h'; simp at h'
        | ok q =>
          rw [hq] at h'
          dsimp only at h'
          obtain ⟨hs1, hqc, hqe⟩ := edgeSlice_ok hp hq
          cases hv : e.view.slice q with
          | error er => rw [hv] at h'; simp at h'
          | ok v =>
            rw [hv] at h'
            injection h' with h'
            subst h'
            have hqd : q.dim = p.dim := by rw [hqe]
            obtain ⟨_, A', B', R', P'⟩ := sizes_slice_facts hw.1.1 hqc (View.slice_dims hv)
            have hqs : q.stop ≠ -1 := by rw [hqe]; dsimp only; split <;> (try split) <;> omega
            refine ⟨View.slice_wf hw hqc hv, hb, fits_edge (x := p.dim) hrest (fun d k hd => (A d k hd).2)
              (fun d k hd hx => (A' d k (hqd ▸ hx)).1 hd) ?_⟩
            intro k hk
            have hk' := (R' hqs k).1 (by rw [hqd]; exact hk)
            rw [hqe] at hk'
            dsimp only at hk'
            by_cases hr : p.stop = -1
            · right; right
              refine ⟨P hr, ?_⟩
              rw [if_pos hr, sliceExtent_one (by omega)] at hk'
              omega
            · have hbe := hse.resolve_left hr
              have hext : (p.dim, p.stop - p.start) ∈ sizes' := by rw [R hr, hs1, sliceExtent_one hbe]
              rw [if_neg hr] at hk'
              by_cases heq : p.start = p.stop
              · left
                rw [if_pos heq, sliceExtent_one hbe] at hk'
                rw [hk']; exact hext
              · right; left
                rw [if_neg heq, sliceExtent_one (by omega)] at hk'
                exact ⟨_, hext, by omega⟩
      · intro hst'
        have hs1 : p.stride = 1 := by
          rcases hst' with h | h
          · exact h
          · exact absurd (hnm1 ▸ hn) (h m hm)
        obtain ⟨q, hq⟩ := edgeSlice_exists hp hs1
        rw [hq]
        dsimp only
        obtain ⟨_, hqc, hqe⟩ := edgeSlice_ok hp hq
        obtain ⟨v, hv⟩ := (Props.C04_slice_accepts_iff e.view q hw hqc).1.2 ⟨n, by rw [hqe]; exact hn, by
          rw [hqe]
          dsimp only
          by_cases hr : p.stop = -1
          · rw [if_pos hr] at hle
            rw [if_pos hr, if_neg (by omega)]; omega
          · rw [if_neg hr] at hle
            have hbe := hse.resolve_left hr
            rw [if_neg hr]
            by_cases hbs : p.start = p.stop
            · rw [if_pos hbs, if_neg hr]; omega
            · rw [if_neg hbs, if_neg (by omega)]; omega⟩
        exact ⟨_, by rw [hv]⟩
  · rw [sliceEntry_of_not_mem hp hc]
    constructor
    · intro e' h'
      injection h' with h'
      subst h'
      refine ⟨⟨hw.1, hw.2⟩, hb, fits_same (x := p.dim) hF (fun d k hd => (A d k hd).2) B (fun d k hd _ => hd) ?_⟩
      intro k hk
      exact absurd (mem_labels hk) hc
    · intro _; exact ⟨_, rfl⟩

theorem sliceMap_spec {sizes sizes' : Sizes} {p : Slice} (hs : WF sizes)
    (hp : p.Constructed) (h : Sizes.slice sizes p = .ok sizes') : ∀ (items : List (Dim × Entry)),
    (∀ q ∈ items, EntryOk sizes q.2) →
    (∀ items', sliceMap sizes p items = .ok items' → items'.map Prod.fst = items.map Prod.fst ∧
      (∀ q ∈ items', EntryOk sizes' q.2) ∧
      List.Forall₂ (fun a b => a.1 = b.1 ∧ sliceEntry sizes p a.2 = .ok b.2) items items') ∧
    ((∀ q ∈ items, ∃ e', sliceEntry sizes p q.2 = .ok e') → ∃ items', sliceMap sizes p items = .ok items')
  | [], _ => by simp [sliceMap]
  | (k, e) :: items, hi => by
    obtain ⟨ih1, ih2⟩ := sliceMap_spec hs hp h items (fun q hq => hi q (by simp [hq]))
    have he := sliceEntry_spec hs (hi (k, e) (by simp)) hp h
    simp only [sliceMap]
    constructor
    · intro items' h'
      cases h1 : sliceEntry sizes p e with
      | error er => rw [h1] at h'; simp at h'
      | ok e' =>
        rw [h1] at h'
        dsimp only at h'
        cases h2 : sliceMap sizes p items with
        | error er => rw [h2] at h'; simp at h'
        | ok rest' =>
          rw [h2] at h'
          injection h' with h'
          subst h'
          obtain ⟨k1, k2, k3⟩ := ih1 _ h2
          refine ⟨by simp [k1], ?_, List.Forall₂.cons ⟨rfl, h1⟩ k3⟩
          intro q hq
          rcases List.mem_cons.1 hq with rfl | hq
          · exact he.1 _ h1
          · exact k2 q hq
    · intro hall
      obtain ⟨e', h1⟩ := hall (k, e) (by simp)
      obtain ⟨rest', h2⟩ := ih2 (fun q hq => hall q (by simp [hq]))
      simp only at h1
      rw [h1]; dsimp only; rw [h2]
      exact ⟨_, rfl⟩

/-- Slicing a well-formed dictionary: the result is described entry by entry. -/
theorem slice_iff {d : SizedDict} {p : Slice} {sizes' : Sizes} (hd : d.Ok) (hp : p.Constructed)
    (h : Sizes.slice d.sizes p = .ok sizes') :
    (∀ d', d.slice p = .ok d' → d'.Ok ∧ d'.sizes = sizes' ∧
      List.Forall₂ (fun a b => a.1 = b.1 ∧ sliceEntry d.sizes p a.2 = .ok b.2) d.items d'.items) ∧
    ((∀ q ∈ d.items, ∃ e', sliceEntry d.sizes p q.2 = .ok e') → ∃ d', d.slice p = .ok d') := by
  obtain ⟨k1, k2⟩ := sliceMap_spec hd.1 hp h d.items (fun q hq => hd.2.2 q hq)
  have hwf := slice_WF h hd.1
  unfold SizedDict.slice
  rw [h]
  dsimp only
  constructor
  · intro d' h'
    cases h2 : sliceMap d.sizes p d.items with
    | error er => rw [h2] at h'; simp at h'
    | ok items =>
      rw [h2] at h'
      dsimp only at h'
      obtain ⟨m1, m2, m3⟩ := k1 _ h2
      rw [ofItems_exists hwf items (m1 ▸ hd.2.1) m2] at h'
      injection h' with h'
      subst h'
      exact ⟨⟨hwf, m1 ▸ hd.2.1, m2⟩, rfl, m3⟩
  · intro hall
    obtain ⟨items, h2⟩ := k2 hall
    obtain ⟨m1, m2, m3⟩ := k1 _ h2
    rw [h2]
    dsimp only
    exact ⟨_, ofItems_exists hwf items (m1 ▸ hd.2.1) m2⟩

theorem slice_sizes_ok {d d' : SizedDict} {p : Slice} (h : d.slice p = .ok d') :
    ∃ sizes', Sizes.slice d.sizes p = .ok sizes' := by
  unfold SizedDict.slice at h
  cases hs : Sizes.slice d.sizes p with
  | error er => rw [hs] at h; simp at h
  | ok s => exact ⟨s, rfl⟩

theorem slice_Ok {d d' : SizedDict} {p : Slice} (hd : d.Ok) (hp : p.Constructed) (h : d.slice p = .ok d') : d'.Ok := by
  obtain ⟨s, hs⟩ := slice_sizes_ok h
  exact ((slice_iff hd hp hs).1 d' h).1

theorem setAligned_Ok {d d' : SizedDict} {key : Dim} {a : Bool} (hd : d.Ok) (h : d.setAligned key a = .ok d') :
    d'.Ok ∧ d'.sizes = d.sizes ∧ d'.readonly = d.readonly := by
  unfold SizedDict.setAligned at h
  split at h
  · simp at h
  · split at h
    · simp at h
    · rename_i e he
      injection h with h
      subst h
      refine ⟨⟨hd.1, insert_nodup hd.2.1 _ _, ?_⟩, rfl, rfl⟩
      intro q hq
      rcases mem_insert hq with hq | rfl
      · exact hd.2.2 q hq
      · have := hd.2.2 _ (lookup_mem he)
        exact this

theorem sliceCoords_Ok {d d' : SizedDict} {p : Slice} (hd : d.Ok) (hp : p.Constructed)
    (h : d.sliceCoords p = .ok d') : d'.Ok := by
  unfold SizedDict.sliceCoords at h
  cases hs : d.slice p with
  | error er => rw [hs] at h; simp at h
  | ok s =>
    rw [hs] at h
    dsimp only at h
    have hsOk := slice_Ok hd hp hs
    cases hc : d.items.foldlM (d.alignStep p) { s with readonly := false } with
    | error er => rw [hc] at h; simp at h
    | ok c =>
      rw [hc] at h
      injection h with h
      subst h
      refine foldlM_Ok (P := SizedDict.Ok) (Q := fun _ => True) ?_ d.items _ c ?_ (by simp) hc
      · intro d1 q d2 h1 _ h2
        unfold SizedDict.alignStep at h2
        split at h2
        · exact (setAligned_Ok h1 h2).1
        · injection h2 with h2; exact h2 ▸ h1
      · exact hsOk

/-! ### Renaming -/

theorem fits_rename_step {sizes sizes' : Sizes} {dims dims' : Dims} {f t : Dim} (hF : Fits sizes dims)
    (hf : f ∈ labels sizes) (ht : f = t ∨ t ∉ labels sizes) (htd : f = t ∨ t ∉ labels dims)
    (A : ∀ p, p ∈ sizes' ↔ (p ∈ sizes ∧ p.1 ≠ f) ∨ ((f, p.2) ∈ sizes ∧ p.1 = t))
    (B : ∀ p, p ∈ dims' ↔ (p ∈ dims ∧ p.1 ≠ f) ∨ ((f, p.2) ∈ dims ∧ p.1 = t)) :
    Fits sizes' dims' := by
  obtain ⟨e, h1, h2⟩ := hF
  refine ⟨if e = f then t else e, ?_, ?_⟩
  · intro d n hd hne
    rcases (B _).1 hd with ⟨hd, hdf⟩ | ⟨hd, hdt⟩
    · simp only at hdf
      have : d ≠ e := by
        intro h; subst h
        rw [if_neg hdf] at hne
        exact hne rfl
      exact (A _).2 (.inl ⟨h1 d n hd this, hdf⟩)
    · simp only at hdt hd
      subst hdt
      have : f ≠ e := by
        intro h; rw [if_pos h.symm] at hne; exact hne rfl
      exact (A _).2 (.inr ⟨h1 f n hd this, rfl⟩)
  · intro n hn
    by_cases hef : e = f
    · subst hef
      rw [if_pos rfl] at hn ⊢
      have hn' : (e, n) ∈ dims := by
        rcases (B _).1 hn with ⟨hd, hdf⟩ | ⟨hd, hdt⟩
        · simp only at hdf
          rcases htd with h | h
          · exact absurd h.symm hdf
          · exact absurd (mem_labels hd) h
        · exact hd
      rcases h2 n hn' with h | ⟨m, hm, h⟩ | ⟨hl, _⟩
      · exact .inl ((A _).2 (.inr ⟨h, rfl⟩))
      · exact .inr (.inl ⟨m, (A _).2 (.inr ⟨hm, rfl⟩), h⟩)
      · exact absurd hf hl
    · rw [if_neg hef] at hn ⊢
      rcases (B _).1 hn with ⟨hd, hdf⟩ | ⟨hd, hdt⟩
      · rcases h2 n hd with h | ⟨m, hm, h⟩ | ⟨hl, h⟩
        · exact .inl ((A _).2 (.inl ⟨h, hef⟩))
        · exact .inr (.inl ⟨m, (A _).2 (.inl ⟨hm, hef⟩), h⟩)
        · by_cases het : e = t
          · subst het
            rcases htd with h' | h'
            · exact absurd h'.symm hef
            · exact absurd (mem_labels hd) h'
          · right; right
            refine ⟨?_, h⟩
            intro hm
            obtain ⟨k, hk⟩ := mem_of_labels hm
            rcases (A _).1 hk with ⟨h', _⟩ | ⟨_, h'⟩
            · exact hl (mem_labels h')
            · exact het h'
      · simp only at hdt hd
        subst hdt
        exact .inl ((A _).2 (.inr ⟨h1 f n hd (fun h => hef h.symm), rfl⟩))

/-- The dimensions of an entry that the data does not have; they are not changed by renaming. -/
theorem extra_rename_step {sizes sizes' : Sizes} {dims dims' : Dims} {f t x : Dim}
    (A : ∀ p, p ∈ sizes' ↔ (p ∈ sizes ∧ p.1 ≠ f) ∨ ((f, p.2) ∈ sizes ∧ p.1 = t))
    (B : ∀ p, p ∈ dims' ↔ (p ∈ dims ∧ p.1 ≠ f) ∨ ((f, p.2) ∈ dims ∧ p.1 = t)) (hf : f ∈ labels sizes)
    (hx : x ∈ labels dims') (hxs : x ∉ labels sizes') : x ∈ labels dims ∧ x ∉ labels sizes := by
  obtain ⟨m, hm⟩ := mem_of_labels hf
  have hxt : x ≠ t := by
    intro h; subst h
    exact hxs (mem_labels ((A (x, m)).2 (.inr ⟨hm, rfl⟩)))
  obtain ⟨n, hn⟩ := mem_of_labels hx
  rcases (B _).1 hn with ⟨h, hf'⟩ | ⟨_, h⟩
  · refine ⟨mem_labels h, ?_⟩
    intro hs
    obtain ⟨k, hk⟩ := mem_of_labels hs
    exact hxs (mem_labels ((A (x, k)).2 (.inl ⟨hk, hf'⟩)))
  · exact absurd h hxt

theorem mem_replaceKey {s s' : Sizes} {f t : Dim} (hw : WF s) (h : replaceKey s f t = .ok s') :
    f ∈ labels s ∧ (f = t ∨ t ∉ labels s) ∧
      ∀ p, p ∈ s' ↔ (p ∈ s ∧ p.1 ≠ f) ∨ ((f, p.2) ∈ s ∧ p.1 = t) := by
  unfold replaceKey at h
  split at h
  · simp at h
  · rename_i hc
    refine ⟨(setKey_ok h).2.1, ?_, mem_setKey_iff hw.1 h⟩
    by_cases hft : f = t
    · exact .inl hft
    · right
      intro ht
      exact hc ⟨hft, contains_iff.2 ht⟩

theorem fits_rename : ∀ (names : List (Dim × Dim)) {sizes sizes' : Sizes} {dims dims' : Dims},
    WF sizes → WF dims → Fits sizes dims →
    (∀ r ∈ names, ∀ x, x ∈ labels dims → x ∉ labels sizes → x ≠ r.2) →
    Sizes.renameDims sizes names true = .ok sizes' → Sizes.renameDims dims names false = .ok dims' →
    Fits sizes' dims'
  | [], _, _, _, _, _, _, hF, _, h1, h2 => by
    simp only [Sizes.renameDims, Except.ok.injEq] at h1 h2
    subst h1 h2; exact hF
  | (f, t) :: names, sizes, sizes', dims, dims', hs, hd, hF, H, h1, h2 => by
    simp only [Sizes.renameDims] at h1 h2
    by_cases hf : f ∈ labels sizes
    · rw [if_pos (contains_iff.2 hf)] at h1
      cases hr : replaceKey sizes f t with
      | error er => rw [hr] at h1; simp [bind, Except.bind] at h1
      | ok s1 =>
        rw [hr] at h1
        simp only [bind, Except.bind] at h1
        obtain ⟨_, hft, A⟩ := mem_replaceKey hs hr
        have hs1 := replaceKey_WF hr hs
        have htd : f = t ∨ t ∉ labels dims := by
          rcases hft with h | h
          · exact .inl h
          · right
            intro ht
            exact H (f, t) (by simp) t ht h rfl
        have key : ∀ (d1 : Dims), WF d1 → (∀ p, p ∈ d1 ↔ (p ∈ dims ∧ p.1 ≠ f) ∨ ((f, p.2) ∈ dims ∧ p.1 = t)) →
            Sizes.renameDims d1 names false = .ok dims' → Fits sizes' dims' := by
          intro d1 hd1 B h2'
          refine fits_rename names hs1 hd1 (fits_rename_step hF hf hft htd A B) ?_ h1 h2'
          intro r hr' x hx hxs
          obtain ⟨k1, k2⟩ := extra_rename_step A B hf hx hxs
          exact H r (by simp [hr']) x k1 k2
        by_cases hfd : f ∈ labels dims
        · rw [if_pos (contains_iff.2 hfd)] at h2
          cases hr2 : replaceKey dims f t with
          | error er => rw [hr2] at h2; simp [bind, Except.bind] at h2
          | ok d1 =>
            rw [hr2] at h2
            simp only [bind, Except.bind] at h2
            exact key d1 (replaceKey_WF hr2 hd) (mem_replaceKey hd hr2).2.2 h2
        · rw [if_neg (by rw [contains_iff]; exact hfd)] at h2
          simp only [if_false, Bool.false_eq_true] at h2
          refine key dims hd ?_ h2
          intro p
          constructor
          · intro hp
            exact .inl ⟨hp, fun h => hfd (h ▸ mem_labels (d := p.1) (x := p.2) hp)⟩
          · rintro (⟨h, _⟩ | ⟨h, _⟩)
            · exact h
            · exact absurd (mem_labels h) hfd
    · rw [if_neg (by rw [contains_iff]; exact hf)] at h1
      simp at h1

theorem length_renameDims : ∀ (names : List (Dim × Dim)) {s s' : Sizes} {b : Bool},
    Sizes.renameDims s names b = .ok s' → s'.length = s.length
  | [], _, _, _, h => by simp only [Sizes.renameDims, Except.ok.injEq] at h; rw [h]
  | (f, t) :: names, s, s', b, h => by
    simp only [Sizes.renameDims] at h
    split at h
    · cases hr : replaceKey s f t with
      | error er => rw [hr] at h; simp [bind, Except.bind] at h
      | ok s1 =>
        rw [hr] at h
        simp only [bind, Except.bind] at h
        rw [length_renameDims names h]
        unfold replaceKey at hr
        split at hr
        · simp at hr
        · have := congrArg List.length (setKey_ok hr).1
          simpa [shape] using this
    · split at h
      · simp at h
      · exact length_renameDims names h

theorem renameEntry_Ok {sizes sizes' : Sizes} {names : List (Dim × Dim)} {e e' : Entry} (hs : WF sizes)
    (he : EntryOk sizes e) (hn : Sizes.renameDims sizes names true = .ok sizes')
    (h : renameEntry sizes names e = .ok e') : EntryOk sizes' e' := by
  obtain ⟨hw, hb, hF⟩ := he
  unfold renameEntry at h
  split at h
  · simp at h
  · rename_i hany
    cases hv : e.view.renameDims names false with
    | error er => rw [hv] at h; simp at h
    | ok v =>
      rw [hv] at h
      injection h with h
      subst h
      unfold View.renameDims at hv
      cases hd : Sizes.renameDims e.view.dims names false with
      | error er => rw [hd] at hv; simp [bind, Except.bind] at hv
      | ok dims' =>
        rw [hd] at hv
        simp only [bind, Except.bind, Except.ok.injEq] at hv
        subst hv
        refine ⟨⟨renameDims_WF hd hw.1, ?_, hw.2.2⟩, hb, ?_⟩
        · exact hw.2.1.trans (length_renameDims names hd).symm
        · refine fits_rename names hs hw.1 hF ?_ hn hd
          intro r hr x hx hxs hxr
          apply hany
          rw [List.any_eq_true]
          refine ⟨r, hr, ?_⟩
          rw [Bool.and_eq_true, Bool.not_eq_true', contains_false, contains_iff]
          exact ⟨hxr ▸ hxs, hxr ▸ hx⟩

theorem renameMap_Ok {sizes sizes' : Sizes} {names : List (Dim × Dim)} (hs : WF sizes)
    (hn : Sizes.renameDims sizes names true = .ok sizes') : ∀ (items items' : List (Dim × Entry)),
    (∀ q ∈ items, EntryOk sizes q.2) → renameMap sizes names items = .ok items' →
    items'.map Prod.fst = items.map Prod.fst ∧ ∀ q ∈ items', EntryOk sizes' q.2
  | [], items', _, h => by
    simp only [renameMap, Except.ok.injEq] at h
    subst h; simp
  | (k, e) :: items, items', hi, h => by
    simp only [renameMap] at h
    cases h1 : renameEntry sizes names e with
    | error er => rw [h1] at h; simp at h
    | ok e' =>
      rw [h1] at h
      dsimp only at h
      cases h2 : renameMap sizes names items with
      | error er => rw [h2] at h; simp at h
      | ok rest' =>
        rw [h2] at h
        injection h with h
        subst h
        obtain ⟨k1, k2⟩ := renameMap_Ok hs hn items rest' (fun q hq => hi q (by simp [hq])) h2
        refine ⟨by simp [k1], ?_⟩
        intro q hq
        rcases List.mem_cons.1 hq with rfl | hq
        · exact renameEntry_Ok hs (hi (k, e) (by simp)) hn h1
        · exact k2 q hq

theorem rename_Ok {d d' : SizedDict} {names : List (Dim × Dim)} (hd : d.Ok)
    (h : d.renameDims names true = .ok d') : d'.Ok := by
  unfold SizedDict.renameDims at h
  cases hs : Sizes.renameDims d.sizes names true with
  | error er => rw [hs] at h; simp at h
  | ok s =>
    rw [hs] at h
    dsimp only at h
    cases h2 : renameMap d.sizes names d.items with
    | error er => rw [h2] at h; simp at h
    | ok items =>
      rw [h2] at h
      injection h with h
      subst h
      obtain ⟨k1, k2⟩ := renameMap_Ok hd.1 hs d.items items (fun q hq => hd.2.2 q hq) h2
      exact ⟨renameDims_WF hs hd.1, k1 ▸ hd.2.1, k2⟩

/-! ### Other operations -/

theorem asConst_Ok {d d' : SizedDict} (hd : d.Ok) (h : d.asConst = .ok d') : d'.Ok := by
  unfold SizedDict.asConst at h
  refine (ofItems_Ok hd.1 ?_ h).1
  intro q hq
  obtain ⟨p, hp, rfl⟩ := List.mem_map.1 hq
  exact ⟨(hd.2.2 p hp).1.1, (hd.2.2 p hp).1.2⟩

theorem erase_Ok {d d' : SizedDict} {key : Dim} (hd : d.Ok) (h : d.erase key = .ok d') : d'.Ok := by
  unfold SizedDict.erase at h
  split at h
  · simp at h
  · split at h
    · simp at h
    · injection h with h
      subst h
      have hsub := eraseEntry_sublist d.items key
      exact ⟨hd.1, hd.2.1.sublist (hsub.map _), fun q hq => hd.2.2 q (hsub.subset hq)⟩

theorem mergeFrom_Ok {d o d' : SizedDict} (hd : d.Ok) (ho : o.Ok) (h : d.mergeFrom o = .ok d') : d'.Ok := by
  unfold SizedDict.mergeFrom at h
  split at h
  · simp at h
  · rename_i c hc
    injection h with h
    subst h
    refine foldlM_Ok (P := SizedDict.Ok) (Q := fun p => p.2.view.WF) ?_ o.items _ c ?_
      (fun p hp => (ho.2.2 p hp).1) hc
    · intro d1 q d2 h1 hq h2
      unfold SizedDict.mergeStep at h2
      split at h2
      · simp at h2
      · exact (set_Ok h1 hq h2).1
    · exact hd

theorem setSizes_Ok {d d' : SizedDict} {s : Sizes} (hd : d.Ok) (hs : WF s)
    (hx : ∀ p ∈ d.items, ∀ x ∈ labels p.2.dims, x ∉ labels d.sizes → x ∉ labels s)
    (h : d.setSizes s = .ok d') : d'.Ok := by
  unfold SizedDict.setSizes at h
  split at h
  · rename_i hi
    injection h with h
    subst h
    have hi := (includes_iff hs.1 hd.1.1).1 hi
    refine ⟨hs, hd.2.1, ?_⟩
    intro p hp
    obtain ⟨hw, hb, e, h1, h2⟩ := hd.2.2 p hp
    refine ⟨hw, hb, e, fun d n hd' he => hi _ (h1 d n hd' he), ?_⟩
    intro n hn
    rcases h2 n hn with h | ⟨m, hm, h⟩ | ⟨hl, h⟩
    · exact .inl (hi _ h)
    · exact .inr (.inl ⟨m, hi _ hm, h⟩)
    · exact .inr (.inr ⟨hx p hp e (mem_labels hn) hl, h⟩)
  · simp at h

end Scipp
