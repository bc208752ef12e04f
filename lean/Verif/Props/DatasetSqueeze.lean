import Verif.Props.DatasetSlice
import Verif.Props.Squeeze
/-!
# C80: squeezing a dataset squeezes coords and items
-/
namespace Scipp.Props
open Sizes

variable {eq eqn : Entry → Entry → Bool}

/-- A data array with the coords of a dataset. -/
private def coordArray (d : Dset) : DArray :=
  ⟨⟨⟨d.coords.sizes, d.coords.sizes.map (fun _ => 0), 0, false⟩, 0, true, false⟩, d.coords, ⟨d.coords.sizes, [], false⟩, ⟨d.coords.sizes, [], false⟩⟩

private theorem coordArray_ok {d : Dset} (hd : d.Ok) : (coordArray d).Ok :=
  ⟨⟨hd.coords.1, by simp [coordArray], fun x hx => by
    obtain ⟨_, _, rfl⟩ := List.mem_map.1 hx
    exact Int.le_refl 0⟩, ⟨hd.coords, .rfl'⟩, ⟨⟨hd.coords.1, List.nodup_nil, fun p hp => nomatch hp⟩, .rfl'⟩,
    ⟨⟨hd.coords.1, List.nodup_nil, fun p hp => nomatch hp⟩, .rfl'⟩⟩

/-- The coords of the dataset behave like those of a data array. -/
private theorem coords_fold : ∀ (ds : List Dim) {d d' : Dset} {a : DArray}, d.Ok → a.Ok → a.coords = d.coords → a.data.dims = d.coords.sizes → a.masks.items = [] → a.attrs.items = [] →
    ds.foldlM (fun d x => d.slice eq eqn (at0 x)) d = .ok d' → ∃ a', ds.foldlM (fun a x => a.slice (at0 x)) a = .ok a' ∧ a'.coords = d'.coords
  | [], d, d', a, _, _, hc, _, _, _, h => by cases h; exact ⟨a, rfl, hc⟩
  | x :: ds, d, d', a, hd, ha, hc, hs, hm, ht, h => by
    rw [List.foldlM_cons] at h
    cases h1 : d.slice eq eqn (at0 x) with
    | error err => rw [h1] at h; cases h
    | ok d1 =>
      rw [h1] at h
      have hp := at0_constructed x
      obtain ⟨g1, -, -, g4, g5⟩ := C81_consistent d d1 hd (at0 x) hp h1
      have hr : ∃ m, ((at0 x).dim, m) ∈ d.coords.sizes ∧ if (at0 x).stop = -1 then (at0 x).start < m else (at0 x).stop ≤ m :=
        (sizes_slice_facts hd.coords.1.1 hp g5).1
      obtain ⟨v, hv⟩ := (C04_slice_accepts_iff a.data.view (at0 x) ha.data hp).1.2 (by
        obtain ⟨m, hm, hle⟩ := hr
        exact ⟨m, by show (x, m) ∈ a.data.dims; rw [hs]; exact hm, hle⟩)
      have hvd : v.dims = d1.coords.sizes := by
        have := View.slice_dims hv
        rw [show a.data.view.dims = d.coords.sizes from hs, g5] at this
        injection this with this
        exact this.symm
      have hex : ∀ {c : SizedDict}, c.Ok → SameSizes c.sizes a.data.dims → c.items = [] → ∃ m, c.slice (at0 x) = .ok m ∧ m.items = [] := by
        intro c hc1 hc2 hc3
        obtain ⟨t, ht⟩ := (sizes_slice_iff hc1.1 hp).2 (by
          obtain ⟨m, hm, hle⟩ := hr
          exact ⟨m, (hc2 _).2 (by rw [hs]; exact hm), hle⟩)
        obtain ⟨m, hm⟩ := (slice_iff hc1 hp ht).2 (fun q hq => by rw [hc3] at hq; simp at hq)
        have := ((slice_iff hc1 hp ht).1 m hm).2.2
        rw [hc3] at this
        exact ⟨m, hm, by cases h : m.items with | nil => rfl | cons _ _ => rw [h] at this; cases this⟩
      obtain ⟨m, hm1, hm2⟩ := hex ha.masks.1 ha.masks.2 hm
      obtain ⟨t, ht1, ht2⟩ := hex ha.attrs.1 ha.attrs.2 ht
      obtain ⟨hb, hb2⟩ := array_slice_of ha hp (v := v) (c := d1.coords) (m := m) (t := t) ⟨hv, by rw [hc]; exact g4, hm1, ht1⟩
      have hcc : ({ d1.coords with sizes := v.dims } : SizedDict) = d1.coords := by rw [hvd]
      obtain ⟨a', i1, i2⟩ := coords_fold ds g1 hb2 hcc hvd hm2 ht2 h
      exact ⟨a', by rw [List.foldlM_cons, hb]; exact i1, i2⟩

/-- An item behaves like a data array without coords. -/
private theorem item_fold : ∀ (ds : List Dim) {d d' : Dset} {a : DArray} {name : Dim}, d.Ok → a.Ok → a.coords.items = [] → lookupEntry d.items name = some a.item →
    ds.foldlM (fun d x => d.slice eq eqn (at0 x)) d = .ok d' → ∃ a', ds.foldlM (fun a x => a.slice (at0 x)) a = .ok a' ∧
      lookupEntry d'.items name = some a'.item ∧ a'.coords.items = []
  | [], d, d', a, _, _, _, hc, hl, h => by cases h; exact ⟨a, rfl, hl, hc⟩
  | x :: ds, d, d', a, name, hd, ha, hc, hl, h => by
    rw [List.foldlM_cons] at h
    cases h1 : d.slice eq eqn (at0 x) with
    | error err => rw [h1] at h; cases h
    | ok d1 =>
      rw [h1] at h
      have hp := at0_constructed x
      obtain ⟨g1, -, -, g4, g5⟩ := C81_consistent d d1 hd (at0 x) hp h1
      obtain ⟨c, l, hc', hl2, hdd⟩ := (dset_slice_ok hd hp d1).1 h1
      have hit := lookup_forall₂ hl2 name
      rw [hl] at hit
      obtain ⟨r, hr, hl'⟩ := hit
      obtain ⟨v, c0, m, t, ⟨k1, k2, k3, k4⟩, k5⟩ := array_slice_ok hr
      have hex : ∃ c1, a.coords.sliceCoords (at0 x) = .ok c1 ∧ c1.items = [] := by
        have hr : SliceInRange a.coords.sizes (at0 x) := by
          obtain ⟨n, hn, hle⟩ := (C04_slice_accepts_iff a.data.view (at0 x) ha.data hp).1.1 ⟨v, k1⟩
          exact ⟨n, (ha.coords.2 _).2 hn, hle⟩
        obtain ⟨t, ht⟩ := (sizes_slice_iff ha.coords.1.1 hp).2 hr
        obtain ⟨c1, q1, -, -⟩ := sliceCoords_exists ha.coords.1 hp ht (fun q hq => by rw [hc] at hq; simp at hq)
        refine ⟨c1, q1, ?_⟩
        have : a.coords = ⟨a.coords.sizes, [], a.coords.readonly⟩ := by rw [← hc]
        rw [this] at q1
        exact sliceCoords_empty q1
      obtain ⟨c1, q1, q2⟩ := hex
      obtain ⟨hb, hb2⟩ := array_slice_of ha hp (v := v) (c := c1) (m := m) (t := t) ⟨k1, q1, k3, k4⟩
      obtain ⟨a', i1, i2, i3⟩ := item_fold ds (name := name) g1 hb2 q2 (by
        rw [hdd]
        refine hl'.trans ?_
        rw [k5]
        rfl) h
      exact ⟨a', by rw [List.foldlM_cons, hb]; exact i1, i2, i3⟩

private theorem fold_ok : ∀ (ds : List Dim) {d : Dset}, d.Ok → ds.Nodup → (∀ x ∈ ds, (x, 1) ∈ d.coords.sizes) →
    ∃ d', ds.foldlM (fun d x => d.slice eq eqn (at0 x)) d = .ok d'
  | [], d, _, _, _ => ⟨d, rfl⟩
  | x :: ds, d, hd, hn, hx => by
    obtain ⟨hxd, hn⟩ := List.nodup_cons.1 hn
    have hp := at0_constructed x
    obtain ⟨d1, h1⟩ := (C81_accepts (eq := eq) (eqn := eqn) d hd (at0 x) hp).2 ⟨⟨1, hx x (by simp), by simp [at0]⟩, .inl rfl⟩
    obtain ⟨g1, -, -, g4, g5⟩ := C81_consistent d d1 hd (at0 x) hp h1
    obtain ⟨-, A, -⟩ := sizes_slice_facts hd.coords.1.1 hp g5
    obtain ⟨d', h'⟩ := fold_ok ds g1 hn (fun y hy => (A y 1 (fun e => hxd ((show y = x from e) ▸ hy))).2 (hx y (by simp [hy])))
    exact ⟨d', by rw [List.foldlM_cons, h1]; exact h'⟩

private theorem fold_facts : ∀ (ds : List Dim) {d d' : Dset}, d.Ok → ds.foldlM (fun d x => d.slice eq eqn (at0 x)) d = .ok d' →
    d'.Ok ∧ d'.items.map Prod.fst = d.items.map Prod.fst ∧ (d.valid = true → d'.valid = true)
  | [], d, d', hd, h => by cases h; exact ⟨hd, rfl, id⟩
  | x :: ds, d, d', hd, h => by
    rw [List.foldlM_cons] at h
    cases h1 : d.slice eq eqn (at0 x) with
    | error err => rw [h1] at h; cases h
    | ok d1 =>
      rw [h1] at h
      have hp := at0_constructed x
      obtain ⟨g1, -, g3, g4, g5⟩ := C81_consistent d d1 hd (at0 x) hp h1
      obtain ⟨c, l, -, -, hdd⟩ := (dset_slice_ok hd hp d1).1 h1
      obtain ⟨i1, i2, i3⟩ := fold_facts ds g1 h
      exact ⟨i1, i2.trans g3, fun _ => i3 (by rw [hdd])⟩

/-- **C80** (datasets): squeezing a dataset succeeds exactly if the given dims are distinct dims of length 1. All coords, and data, masks and attrs of all items,
are squeezed as those of data arrays. -/
theorem C80_dataset (d : Dset) (sel : Option (List Dim)) (hd : d.Ok) (hi : Dim.invalid ∉ labels d.coords.sizes)
    (hc : ∀ q ∈ d.coords.items, Dim.invalid ∉ labels q.2.dims) :
    ((∃ d', d.squeeze eq eqn sel = .ok d') ↔ (squeezed d.coords.sizes sel).Nodup ∧ ∀ x ∈ squeezed d.coords.sizes sel, (x, 1) ∈ d.coords.sizes) ∧
    ∀ d', d.squeeze eq eqn sel = .ok d' → d'.Ok ∧ d'.readonly = false ∧ d'.items.map Prod.fst = d.items.map Prod.fst ∧
      DictTo (squeezed d.coords.sizes sel) d.coords d'.coords ∧
      (∀ k e e', (k, e) ∈ d.coords.items → (k, e') ∈ d'.coords.items →
        (e'.aligned = true ↔ e.aligned = true ∧ ¬ LabelsSqueezed d.coords.sizes k e.dims (squeezed d.coords.sizes sel))) ∧
      ∀ name it, lookupEntry d.items name = some it → ∃ it', lookupEntry d'.items name = some it' ∧
        ArrayTo (squeezed d.coords.sizes sel) it.array it'.array := by
  obtain ⟨h1, h2⟩ := dims_cases d.coords.sizes hd.coords.1 sel
  by_cases hx : ∀ x ∈ squeezed d.coords.sizes sel, (x, 1) ∈ d.coords.sizes
  · have hi' : Dim.invalid ∉ squeezed d.coords.sizes sel := fun h => hi (mem_labels (hx _ h))
    have key : ∀ r, d.squeeze eq eqn sel = .ok r ↔ ∃ b, (squeezed d.coords.sizes sel).foldlM (fun d x => d.slice eq eqn (at0 x)) d = .ok b ∧ r = b.shallow := by
      intro r
      unfold Dset.squeeze
      rw [h1 hx]
      have e0 : (fun (d : Dset) (x : Dim) => d.slice eq eqn ⟨x, 0, -1, 1⟩) = (fun d x => d.slice eq eqn (at0 x)) := rfl
      rw [e0]
      show ((squeezed d.coords.sizes sel).foldlM (fun d x => d.slice eq eqn (at0 x)) d >>= fun r => pure r.shallow) = .ok r ↔ _
      cases (squeezed d.coords.sizes sel).foldlM (fun d x => d.slice eq eqn (at0 x)) d with
      | error e =>
        constructor
        · intro h; cases h
        · rintro ⟨_, h, _⟩; cases h
      | ok b =>
        constructor
        · intro h; cases h; exact ⟨b, rfl, rfl⟩
        · rintro ⟨_, h, rfl⟩; cases h; rfl
    have hnd : ∀ b, (squeezed d.coords.sizes sel).foldlM (fun d x => d.slice eq eqn (at0 x)) d = .ok b → (squeezed d.coords.sizes sel).Nodup := by
      intro b hb
      obtain ⟨a', ha', -⟩ := coords_fold _ hd (coordArray_ok hd) rfl rfl rfl rfl hb
      exact (view_fold _ (coordArray_ok hd).data (array_fold_view _ ha')).1
    refine ⟨⟨fun ⟨d', h⟩ => ?_, fun h => ?_⟩, fun d' h => ?_⟩
    · obtain ⟨b, hb, -⟩ := (key d').1 h
      exact ⟨hnd b hb, hx⟩
    · obtain ⟨b, hb⟩ := fold_ok (eq := eq) (eqn := eqn) _ hd h.1 hx
      exact ⟨_, (key _).2 ⟨b, hb, rfl⟩⟩
    · obtain ⟨b, hb, rfl⟩ := (key d').1 h
      obtain ⟨f1, f2, f3⟩ := fold_facts _ hd hb
      have hn := hnd b hb
      obtain ⟨ca, hca, hcc⟩ := coords_fold _ hd (coordArray_ok hd) rfl rfl rfl rfl hb
      obtain ⟨ca', hca', hto⟩ := array_fold _ (coordArray_ok hd) hn hx hi' hc
      rw [hca] at hca'
      cases hca'
      have hlook : ∀ name, lookupEntry b.shallow.items name = (lookupEntry b.items name).map (fun it : DItem =>
          { it with masks := { it.masks with readonly := false }, attrs := { it.attrs with readonly := false } }) := by
        intro name
        unfold Dset.shallow
        dsimp only
        generalize b.items = l
        induction l with
        | nil => rfl
        | cons q l ih =>
          simp only [List.map_cons, lookupEntry]
          split
          · rfl
          · exact ih
      have hkeys : b.shallow.items.map Prod.fst = b.items.map Prod.fst := by
        unfold Dset.shallow
        rw [List.map_map]
        rfl
      refine ⟨⟨⟨f1.coords.1, f1.coords.2.1, f1.coords.2.2⟩, by rw [hkeys]; exact f1.names, fun q hq => ?_, fun _ => rfl, fun hv => ?_⟩, rfl, hkeys.trans f2, ?_, ?_, fun name it hl => ?_⟩
      · obtain ⟨q', hq', rfl⟩ := List.mem_map.1 hq
        have hf := f1.items q' hq'
        exact ⟨hf.data, hf.dims, ⟨⟨hf.masks.1.1, hf.masks.1.2.1, hf.masks.1.2.2⟩, hf.masks.2⟩, ⟨⟨hf.attrs.1.1, hf.attrs.1.2.1, hf.attrs.1.2.2⟩, hf.attrs.2⟩⟩
      · obtain ⟨v1, v2, v3, v4⟩ := f1.invalid hv
        exact ⟨v1, v2, by unfold Dset.shallow; rw [v3]; rfl, rfl⟩
      · have := hto.coords
        rw [hcc] at this
        exact this
      · intro k e e' he he'
        exact hto.aligned k e e' he (by rw [hcc]; exact he')
      · have hf := hd.items _ (lookup_mem hl)
        obtain ⟨ia, hia, hil, hie⟩ := item_fold _ hd (item_array_ok hf) rfl (name := name) (a := it.array) hl hb
        have hds : ∀ x ∈ squeezed d.coords.sizes sel, (x, 1) ∈ it.array.data.dims := fun x hx' => (hf.dims _).2 (hx x hx')
        obtain ⟨ia', hia', ito⟩ := array_fold _ (item_array_ok hf) hn hds hi' (fun q hq => nomatch hq)
        rw [hia] at hia'
        cases hia'
        refine ⟨_, by rw [hlook, hil]; rfl, ?_⟩
        have hok := ito.ok
        refine ⟨⟨hok.data, ⟨⟨hok.data.1, List.nodup_nil, fun p hp => nomatch hp⟩, .rfl'⟩, ⟨⟨hok.masks.1.1, hok.masks.1.2.1, hok.masks.1.2.2⟩, hok.masks.2⟩,
          ⟨⟨hok.attrs.1.1, hok.attrs.1.2.1, hok.attrs.1.2.2⟩, hok.attrs.2⟩⟩, ito.data, ⟨rfl, fun k e h => nomatch h⟩, ito.masks, ito.attrs, fun k e e' h => (nomatch h),
          ito.masksAligned, ito.attrsAligned⟩
  · obtain ⟨e, he⟩ := h2 hx
    have : d.squeeze eq eqn sel = .error e := by
      unfold Dset.squeeze
      rw [he]
      rfl
    rw [this]
    exact ⟨⟨fun h => (by obtain ⟨_, h⟩ := h; cases h), fun h => absurd h.2 hx⟩, fun _ h => (by cases h)⟩

/-! ### Example -/

/-- Dims of length 1 and 3, bin edges along the first, an item with a mask. -/
private def d5 : Dset := ⟨⟨[(1, 1), (2, 3)], [(1, ⟨⟨[(1, 2)], [1], 0, false⟩, 1, true, false⟩), (5, ⟨⟨[(1, 1)], [1], 0, false⟩, 2, true, false⟩),
    (2, ⟨⟨[(2, 3)], [1], 0, false⟩, 3, true, false⟩)], false⟩,
  [(8, ⟨⟨⟨[(1, 1), (2, 3)], [3, 1], 0, false⟩, 0, true, false⟩, ⟨[(1, 1), (2, 3)], [(7, ⟨⟨[(1, 1), (2, 3)], [3, 1], 0, false⟩, 5, true, false⟩)], false⟩,
    ⟨[(1, 1), (2, 3)], [], false⟩⟩)], false, true⟩

example : d5.squeeze dsEq dsEq none = .ok ⟨⟨[(2, 3)], [(1, ⟨⟨[(1, 2)], [1], 0, false⟩, 1, false, false⟩), (5, ⟨⟨[], [], 0, false⟩, 2, false, false⟩),
    (2, ⟨⟨[(2, 3)], [1], 0, true⟩, 3, true, false⟩)], false⟩,
  [(8, ⟨⟨⟨[(2, 3)], [1], 0, false⟩, 0, true, false⟩, ⟨[(2, 3)], [(7, ⟨⟨[(2, 3)], [1], 0, false⟩, 5, true, false⟩)], false⟩,
    ⟨[(2, 3)], [], false⟩⟩)], false, true⟩ := by decide
example : d5.squeeze dsEq dsEq (some [2]) = .error .dimension ∧ d5.squeeze dsEq dsEq (some [1, 1]) = .error .slice := by decide

private theorem d5_ok : d5.Ok := by
  have hw : Sizes.WF [((1 : Dim), (1 : Int)), (2, 3)] := by simp [WF, labels]
  refine ⟨⟨hw, by decide, ?_⟩, by decide, ?_, by decide, by decide⟩
  · intro p hp
    simp only [d5, List.mem_cons, List.not_mem_nil, or_false] at hp
    rcases hp with rfl | rfl | rfl
    · exact ⟨by simp [View.WF, Sizes.WF, labels], rfl, 1, by simp [Entry.dims], by simp [Entry.dims, d5]⟩
    · exact ⟨by simp [View.WF, Sizes.WF, labels], rfl, 1, by simp [Entry.dims], by simp [Entry.dims, d5]⟩
    · exact ⟨by simp [View.WF, Sizes.WF, labels], rfl, 2, by simp [Entry.dims], by simp [Entry.dims, d5]⟩
  · intro p hp
    simp only [d5, List.mem_cons, List.not_mem_nil, or_false] at hp
    subst hp
    refine ⟨by simp [View.WF, Sizes.WF, labels], .rfl', ⟨⟨hw, by decide, ?_⟩, .rfl'⟩, ⟨⟨hw, by decide, ?_⟩, .rfl'⟩⟩
    · intro p hp
      simp only [List.mem_cons, List.not_mem_nil, or_false] at hp
      subst hp
      exact ⟨by simp [View.WF, Sizes.WF, labels], rfl, 0, by simp +contextual [Entry.dims], by simp [Entry.dims]⟩
    · intro p hp; cases hp

example := C80_dataset (eq := dsEq) (eqn := dsEq) d5 none d5_ok (by decide) (by decide)

end Scipp.Props
