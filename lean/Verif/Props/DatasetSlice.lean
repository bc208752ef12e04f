import Verif.Lemmas.DatasetSlice
import Verif.Props.Dataset
/-!
# C81: slicing a dataset slices the items

`ds.slice(p)[name]` and `ds[name].slice(p)`.
-/
namespace Scipp.Props
open Sizes

variable {eq eqn : Entry → Entry → Bool}

/-- The slice is within bounds. -/
def SliceInRange (sizes : Sizes) (p : Slice) : Prop := ∃ m, (p.dim, m) ∈ sizes ∧ if p.stop = -1 then p.start < m else p.stop ≤ m

/-- None of the entries has bin edges along `x`. -/
def NoEdgesAlong (x : Dim) (d : SizedDict) : Prop := ∀ q ∈ d.items, ∀ m, (x, m) ∈ d.sizes → (x, m + 1) ∉ q.2.dims

/-- **C81** (accepts): a dataset can be sliced exactly if the slice is within bounds and, unless the stride is 1, no coord, mask or attr has bin
edges along the sliced dim. -/
theorem C81_accepts (d : Dset) (hd : d.Ok) (p : Slice) (hp : p.Constructed) :
    (∃ d', d.slice eq eqn p = .ok d') ↔ SliceInRange d.coords.sizes p ∧
      (p.stride = 1 ∨ NoEdgesAlong p.dim d.coords ∧ ∀ q ∈ d.items, NoEdgesAlong p.dim q.2.masks ∧ NoEdgesAlong p.dim q.2.attrs) := by
  simp only [dset_slice_ok hd hp]
  have hno : ∀ {x : SizedDict} {s : Sizes}, x.Ok → Sizes.slice x.sizes p = .ok s → ((∃ c, x.slice p = .ok c) ↔ p.stride = 1 ∨ NoEdgesAlong p.dim x) :=
    fun hx hs => dict_slice_iff hx hp hs
  constructor
  · rintro ⟨d', c, l, hc, hl, -⟩
    have hsz := sliceCoords_sizes hd.coords hp hc
    refine ⟨(sizes_slice_iff hd.coords.1 hp).1 ⟨_, hsz⟩, ?_⟩
    by_cases h1 : p.stride = 1
    · exact .inl h1
    refine .inr ⟨((hno hd.coords hsz).1 ((coords_slice_iff hd.coords hp hsz).1 ⟨c, hc⟩)).resolve_left h1, fun q hq => ?_⟩
    obtain ⟨b, -, -, hb⟩ := forall₂_left hl hq
    obtain ⟨v, c', m, t, ⟨g1, -, g3, g4⟩, -⟩ := array_slice_ok hb
    have hf := hd.items q hq
    obtain ⟨s1, hs1⟩ := slice_sizes_ok g3
    obtain ⟨s2, hs2⟩ := slice_sizes_ok g4
    exact ⟨((hno hf.masks.1 hs1).1 ⟨m, g3⟩).resolve_left h1, ((hno hf.attrs.1 hs2).1 ⟨t, g4⟩).resolve_left h1⟩
  · rintro ⟨hr, hst⟩
    have hrs : ∀ {s : Sizes}, SameSizes s d.coords.sizes → SliceInRange s p := fun h => by
      obtain ⟨m, hm, hle⟩ := hr
      exact ⟨m, (h _).2 hm, hle⟩
    obtain ⟨s, hs⟩ := (sizes_slice_iff hd.coords.1 hp).2 hr
    obtain ⟨c, hc⟩ := (coords_slice_iff hd.coords hp hs).2 ((hno hd.coords hs).2 (hst.imp id fun h => h.1))
    have hall : ∀ q ∈ d.items, ∃ r, q.2.array.slice p = .ok r := by
      intro q hq
      have hf := hd.items q hq
      obtain ⟨v, hv⟩ := (C04_slice_accepts_iff q.2.data.view p hf.data hp).1.2 (hrs hf.dims)
      obtain ⟨s0, hs0⟩ := (sizes_slice_iff hf.data.1 hp).2 (hrs hf.dims)
      obtain ⟨s1, hs1⟩ := (sizes_slice_iff hf.masks.1.1 hp).2 (hrs (hf.masks.2.trans hf.dims))
      obtain ⟨s2, hs2⟩ := (sizes_slice_iff hf.attrs.1.1 hp).2 (hrs (hf.attrs.2.trans hf.dims))
      obtain ⟨c0, hc0⟩ := sliceCoords_exists (item_array_ok hf).coords.1 hp hs0 (fun q hq => nomatch hq)
      obtain ⟨m, hm⟩ := (hno hf.masks.1 hs1).2 (hst.imp id fun h => (h.2 q hq).1)
      obtain ⟨t, ht⟩ := (hno hf.attrs.1 hs2).2 (hst.imp id fun h => (h.2 q hq).2)
      exact ⟨_, (array_slice_of (item_array_ok hf) hp ⟨hv, hc0.1, hm, ht⟩).1⟩
    have : ∀ its : List (Dim × DItem), (∀ q ∈ its, ∃ r, q.2.array.slice p = .ok r) →
        ∃ l : List (Dim × DArray), List.Forall₂ (fun q r => q.1 = r.1 ∧ q.2.array.slice p = .ok r.2) its l := by
      intro its
      induction its with
      | nil => exact fun _ => ⟨[], .nil⟩
      | cons q its ih =>
        intro h
        obtain ⟨r, hr⟩ := h q (by simp)
        obtain ⟨l, hl⟩ := ih fun q hq => h q (by simp [hq])
        exact ⟨(q.1, r) :: l, .cons ⟨rfl, hr⟩ hl⟩
    obtain ⟨l, hl⟩ := this d.items hall
    exact ⟨_, c, l, hc, hl, rfl⟩

theorem lookup_forall₂ {p : Slice} : ∀ {its : List (Dim × DItem)} {l : List (Dim × DArray)},
    List.Forall₂ (fun q r => q.1 = r.1 ∧ q.2.array.slice p = .ok r.2) its l → ∀ k,
    match lookupEntry its k with
    | none => lookupEntry (l.map (fun q => (q.1, q.2.item))) k = none
    | some it => ∃ r, it.array.slice p = .ok r ∧ lookupEntry (l.map (fun q => (q.1, q.2.item))) k = some r.item
  | _, _, .nil, k => rfl
  | (k1, it) :: its, (k2, r) :: l, .cons h t, k => by
    obtain ⟨h1, h2⟩ := h
    dsimp only at h1 h2
    subst h1
    simp only [lookupEntry, List.map_cons]
    by_cases hk : k1 = k
    · simp only [if_pos hk]
      exact ⟨r, h2, rfl⟩
    · simp only [if_neg hk]
      exact lookup_forall₂ t k

/-- **C81** (structure): the slice is a consistent read-only dataset with the same names, and its coords are the sliced coords. -/
theorem C81_consistent (d d' : Dset) (hd : d.Ok) (p : Slice) (hp : p.Constructed) (h : d.slice eq eqn p = .ok d') :
    d'.Ok ∧ d'.readonly = true ∧ d'.items.map Prod.fst = d.items.map Prod.fst ∧ d.coords.sliceCoords p = .ok d'.coords ∧
    Sizes.slice d.coords.sizes p = .ok d'.coords.sizes := by
  obtain ⟨c, l, hc, hl, rfl⟩ := (dset_slice_ok hd hp d').1 h
  have hk : (l.map (fun q => (q.1, q.2.item))).map Prod.fst = d.items.map Prod.fst := by
    rw [List.map_map]
    exact forall₂_keys (R := fun x y => DArray.slice (DItem.array x) p = .ok y) hl
  refine ⟨⟨sliceCoords_Ok hd.coords hp hc, by rw [hk]; exact hd.names, fun q hq => ?_, fun h => (nomatch h), fun h => (nomatch h)⟩, rfl, hk, hc,
    sliceCoords_sizes hd.coords hp hc⟩
  obtain ⟨r, hr, rfl⟩ := List.mem_map.1 hq
  obtain ⟨b, hb, -, hb2⟩ := forall₂_left hl.flip hr
  have hf := hd.items b hb
  obtain ⟨v, c', m, t, g1, g2⟩ := array_slice_ok hb2
  have hok := (array_slice_of (item_array_ok hf) hp g1).2
  rw [← g2] at hok
  refine ⟨hok.data, ?_, hok.masks, hok.attrs⟩
  show SameSizes r.2.data.dims c.sizes
  rw [g2]
  exact slice_same hf.data.1 hd.coords.1 hp hf.dims (View.slice_dims g1.1) (sliceCoords_sizes hd.coords hp hc)

private theorem realigned_same {s s' : Sizes} {i i' : List (Dim × Entry)} {b b' : Bool} (hs : WF s) (hs' : WF s') (h : SameSizes s s') (p : Slice) (k : Dim) (e e' : Entry) :
    (SizedDict.realigned ⟨s', i', b'⟩ p k e.asConst e'.asConst) = (SizedDict.realigned ⟨s, i, b⟩ p k e e').asConst := by
  have : SizedDict.unalignedBySlice ⟨s', i', b'⟩ p k e.asConst = SizedDict.unalignedBySlice ⟨s, i, b⟩ p k e := by
    have hd : SizedDict.dimOf ⟨s', i', b'⟩ k e.asConst = SizedDict.dimOf ⟨s, i, b⟩ k e := by
      unfold SizedDict.dimOf
      have he : Sizes.isEdges s' e.dims = Sizes.isEdges s e.dims := funext fun x => (isEdges_same hs hs' h e.dims x).symm
      have hde : e.asConst.dims = e.dims := rfl
      rw [hde]
      dsimp only
      rw [he]
    unfold SizedDict.unalignedBySlice
    rw [hd]
    rfl
  unfold SizedDict.realigned
  rw [this]
  split <;> rfl

/-- Dims of a sliced entry: only the sliced dim changes, and it stays exactly for a range or for bin edges. -/
private theorem sliced_labels {s : Sizes} {e e' : Entry} {p : Slice} (hs : WF s) (he : EntryOk s e) (hp : p.Constructed) (h : sliceEntry s p e = .ok e')
    (x : Dim) (hx : x ≠ p.dim) : x ∈ labels e'.dims ↔ x ∈ labels e.dims := by
  have hv : ∀ {q : Slice} {v : View}, q.Constructed → q.dim = p.dim → e.view.slice q = .ok v → (x ∈ labels v.dims ↔ x ∈ labels e.dims) := by
    intro q v hq hqd hv
    obtain ⟨-, A, -⟩ := sizes_slice_facts he.1.1.1 hq (View.slice_dims hv)
    constructor
    · intro h
      obtain ⟨n, hn⟩ := mem_of_labels h
      exact mem_labels ((A x n (hqd ▸ hx)).1 hn)
    · intro h
      obtain ⟨n, hn⟩ := mem_of_labels h
      exact mem_labels ((A x n (hqd ▸ hx)).2 hn)
  unfold sliceEntry at h
  split at h
  · split at h
    · split at h
      · cases h
      · rename_i q hq
        split at h
        · cases h
        rename_i v hvq
        cases h
        split at hq
        · cases hq
          exact hv hp rfl hvq
        · obtain ⟨-, h2, h3⟩ := edgeSlice_ok hp hq
          exact hv h2 (by rw [h3]) hvq
    · cases h
    · cases h
  · rw [if_neg hp.ne_none] at h
    cases h
    exact Iff.rfl

/-- **C81** (items): an item of a sliced dataset is the slice of the item, with the same data, masks and attrs. It has the same coords, except that a coord with
bin edges along a dim that is sliced at a single position is missing. -/
theorem C81_item_partial (d d' : Dset) (hd : d.Ok) (p : Slice) (hp : p.Constructed) (h : d.slice eq eqn p = .ok d') (name : Dim) (it : DItem)
    (hl : lookupEntry d.items name = some it) :
    ∃ a b a', d.get name = .ok a ∧ a.slice p = .ok b ∧ d'.get name = .ok a' ∧ a'.data = b.data ∧ a'.masks = b.masks ∧ a'.attrs = b.attrs ∧
      a'.coords.sizes = b.coords.sizes ∧
      ∀ k, lookupEntry a'.coords.items k =
        match lookupEntry b.coords.items k with
        | none => none
        | some e => if p.stop = -1 ∧ p.dim ∈ labels e.dims then none else some e := by
  obtain ⟨hd', -, -, hc, hsz⟩ := C81_consistent d d' hd p hp h
  obtain ⟨c, l, hc', hl2, hdd⟩ := (dset_slice_ok hd hp d').1 h
  rw [hc] at hc'
  cases hc'
  have hit : ∃ r, it.array.slice p = .ok r ∧ lookupEntry d'.items name = some r.item := by
    have := lookup_forall₂ hl2 name
    rw [hl] at this
    rw [hdd]
    exact this
  obtain ⟨r, hr, hl'⟩ := hit
  have hf := hd.items _ (lookup_mem hl)
  obtain ⟨v, c0, m, t, g1, g2⟩ := array_slice_ok hr
  obtain ⟨a, ha, haok, ad, am, at_, ac⟩ := C53_item hd hl
  obtain ⟨a', ha', haok', ad', am', at', ac'⟩ := C53_item hd' hl'
  have hae := get_eq hd hl
  rw [ha] at hae
  have hasz : a.coords.sizes = it.data.dims := by cases hae; rfl
  have hae' := get_eq hd' hl'
  rw [ha'] at hae'
  have hasz' : a'.coords.sizes = v.dims := by
    have : a'.coords.sizes = r.item.data.dims := by cases hae'; rfl
    rw [this, g2]
    rfl
  have hss : SameSizes d.coords.sizes a.coords.sizes := by rw [hasz]; exact hf.dims.symm
  have hvs : Sizes.slice a.coords.sizes p = .ok v.dims := by rw [hasz]; exact View.slice_dims g1.1
  obtain ⟨⟨mm, hmm, hle⟩, A, B, R, P⟩ := sizes_slice_facts hd.coords.1.1 hp hsz
  -- the coords of the item can be sliced
  have hent : ∀ q ∈ a.coords.items, ∃ e e0, q.2 = e.asConst ∧ lookupEntry d.coords.items q.1 = some e ∧ sliceEntry d.coords.sizes p e = .ok e0 ∧
      sliceEntry a.coords.sizes p q.2 = .ok e0.asConst := by
    rintro ⟨k, x⟩ hq
    have h1 := ac k
    rw [lookup_of_mem haok.coords.1.2.1 hq] at h1
    rcases sliceCoords_lookup hd.coords hp hc k with ⟨h2, -⟩ | ⟨e, e0, h2, h3, -⟩
    · rw [h2] at h1; cases h1
    · rw [h2] at h1
      dsimp only at h1
      split at h1
      · injection h1 with h1
        refine ⟨e, e0, h1, h2, h3, ?_⟩
        show sliceEntry a.coords.sizes p x = _
        rw [h1, show ({ e with view := e.view.asConst } : Entry) = e.asConst from rfl, sliceEntry_asConst hd.coords.1 haok.coords.1.1 hss, h3]
        rfl
      · cases h1
  obtain ⟨cb, hcb, hcbs, -⟩ := sliceCoords_exists haok.coords.1 hp hvs (fun q hq => by
    obtain ⟨e, e0, -, -, -, h5⟩ := hent q hq
    exact ⟨_, h5⟩)
  obtain ⟨hb, -⟩ := array_slice_of haok hp (v := v) (c := cb) (m := m) (t := t)
    ⟨by rw [ad]; exact g1.1, hcb, by rw [am]; exact g1.2.2.1, by rw [at_]; exact g1.2.2.2⟩
  refine ⟨a, _, a', ha, hb, ha', ?_, ?_, ?_, hasz', fun k => ?_⟩
  · rw [ad', g2, ad]; rfl
  · rw [am', g2]; rfl
  · rw [at', g2]; rfl
  · rw [ac' k]
    dsimp only
    rcases sliceCoords_lookup hd.coords hp hc k with ⟨h2, h3⟩ | ⟨e, e0, h2, h3, h4⟩
    · rw [h3]
      rcases sliceCoords_lookup haok.coords.1 hp hcb k with ⟨-, h6⟩ | ⟨e1, e1', h5, -, -⟩
      · rw [h6]
      · rw [ac k, h2] at h5; cases h5
    · rw [h4]
      dsimp only
      have hE : EntryOk d.coords.sizes e := hd.coords.2.2 _ (lookup_mem h2)
      have hlab : ∀ x, x ≠ p.dim → (x ∈ labels e0.dims ↔ x ∈ labels e.dims) := fun x hx => sliced_labels hd.coords.1 hE hp h3 x hx
      have hre : labels (d.coords.realigned p k e e0).dims = labels e0.dims := by
        unfold SizedDict.realigned
        split <;> rfl
      have hsl : ∀ x, x ≠ p.dim → (x ∈ labels d'.coords.sizes ↔ x ∈ labels d.coords.sizes) := by
        intro x hx
        constructor
        · exact B x
        · intro hh
          obtain ⟨n, hn⟩ := mem_of_labels hh
          exact mem_labels ((A x n hx).2 hn)
      by_cases happ : ∀ x ∈ labels e.dims, x ∈ labels d.coords.sizes
      · -- the item has the coord
        have hal : lookupEntry a.coords.items k = some e.asConst := by
          rw [ac k, h2]
          dsimp only
          rw [if_pos happ]
          rfl
        rcases sliceCoords_lookup haok.coords.1 hp hcb k with ⟨h5, -⟩ | ⟨e1, e1', h5, h6, h7⟩
        · rw [hal] at h5; cases h5
        rw [hal] at h5
        cases h5
        rw [sliceEntry_asConst hd.coords.1 haok.coords.1.1 hss, h3] at h6
        cases h6
        rw [h7, realigned_same (i := d.coords.items) (b := d.coords.readonly) hd.coords.1 haok.coords.1.1 hss]
        dsimp only
        have hre' : labels (SizedDict.realigned ⟨d.coords.sizes, d.coords.items, d.coords.readonly⟩ p k e e0).asConst.dims = labels e0.dims := hre
        rw [hre, hre']
        by_cases hlost : p.stop = -1 ∧ p.dim ∈ labels e0.dims
        · rw [if_pos hlost, if_neg]
          exact fun hh => P hlost.1 (hh _ hlost.2)
        · rw [if_neg hlost, if_pos]
          · rfl
          · intro x hx
            by_cases hxp : x = p.dim
            · subst hxp
              by_cases hst : p.stop = -1
              · exact absurd ⟨hst, hx⟩ hlost
              · exact mem_labels ((R hst _).2 rfl)
            · exact (hsl x hxp).2 (happ x ((hlab x hxp).1 hx))
      · have hal : lookupEntry a.coords.items k = none := by
          rw [ac k, h2]
          dsimp only
          rw [if_neg happ]
        rcases sliceCoords_lookup haok.coords.1 hp hcb k with ⟨-, h6⟩ | ⟨e1, e1', h5, -, -⟩
        · rw [h6]
          dsimp only
          rw [if_neg]
          intro hh
          refine happ fun x hx => ?_
          by_cases hxp : x = p.dim
          · rw [hxp]; exact mem_labels hmm
          · exact (hsl x hxp).1 (hh x (by rw [hre]; exact (hlab x hxp).2 hx))
        · rw [hal] at h5; cases h5

/-! ### Examples -/

/-- A dataset with bin edges, another coord, and an item with a mask. -/
private def dsB : Dset := (dsA.setDataArray dsEq dsEq 7 (dsArr 4 (dsVar 12 2 3))).1

private theorem dsB_ok : dsB.Ok := by
  have h : dsA.setDataArray dsEq dsEq 7 (dsArr 4 (dsVar 12 2 3)) = (dsB, none) := rfl
  have hf := dsArr_ok 4 12 3 true (.inl rfl)
  refine ⟨⟨dsA_ok.coords.1, by decide, ?_⟩, by decide, ?_, by decide, by decide⟩
  · intro p hp
    rcases List.mem_cons.1 hp with rfl | hp
    · exact ⟨dsVar_wf _ _ _ (by decide), rfl, dsFits 2 (.inr rfl)⟩
    rcases List.mem_cons.1 hp with rfl | hp
    · exact ⟨dsVar_wf _ _ _ (by decide), rfl, dsFits 2 (.inl rfl)⟩
    rw [List.mem_singleton.1 hp]
    exact ⟨dsVar_wf _ _ _ (by decide), rfl, dsFits 2 (.inl rfl)⟩
  · intro p hp
    rw [List.mem_singleton.1 hp]
    exact ⟨hf.data, .rfl', hf.masks, hf.attrs⟩

private def sliced (p : Slice) : Dset := ((dsB.slice dsEq dsEq p).toOption).getD dsB

example : SliceInRange dsB.coords.sizes ⟨2, 1, 3, 1⟩ := ⟨3, by decide, by decide⟩
example := C81_accepts (eq := dsEq) (eqn := dsEq) dsB dsB_ok ⟨2, 0, 3, 2⟩ (.inl (by decide))
/-- A stride does not work with bin edges. -/
example : dsB.slice dsEq dsEq ⟨2, 0, 3, 2⟩ = .error .slice ∧ dsB.slice dsEq dsEq ⟨2, 1, 4, 1⟩ = .error .slice ∧
    dsB.slice dsEq dsEq ⟨3, 0, 1, 1⟩ = .error .slice := by decide
example := C81_consistent dsB (sliced ⟨2, 1, 3, 1⟩) dsB_ok ⟨2, 1, 3, 1⟩ (.inl (by decide)) (by decide : dsB.slice dsEq dsEq ⟨2, 1, 3, 1⟩ = .ok _)
example := C81_item_partial dsB (sliced ⟨2, 1, 3, 1⟩) dsB_ok ⟨2, 1, 3, 1⟩ (.inl (by decide)) (by decide : dsB.slice dsEq dsEq ⟨2, 1, 3, 1⟩ = .ok _) 7 _ rfl

/-- **C81** fails for bin edges at a single position: `ds["x", 1]["a"]` does not have the coord with the edges of the bin that `ds["a"]["x", 1]` has. -/
theorem C81_item_loses_edges : ∃ (d d' : Dset) (a b a' : DArray), d.Ok ∧ d.slice dsEq dsEq ⟨2, 1, -1, 1⟩ = .ok d' ∧ d.get 7 = .ok a ∧ a.slice ⟨2, 1, -1, 1⟩ = .ok b ∧
    d'.get 7 = .ok a' ∧ (lookupEntry b.coords.items 2).map Entry.dims = some [(2, 2)] ∧ lookupEntry a'.coords.items 2 = none ∧
    (lookupEntry d'.coords.items 2).map Entry.dims = some [(2, 2)] :=
  ⟨dsB, sliced ⟨2, 1, -1, 1⟩, ((dsB.get 7).toOption).getD (dsArr 4 (dsVar 12 2 3)),
    (((((dsB.get 7).toOption).getD (dsArr 4 (dsVar 12 2 3))).slice ⟨2, 1, -1, 1⟩).toOption).getD (dsArr 4 (dsVar 12 2 3)),
    (((sliced ⟨2, 1, -1, 1⟩).get 7).toOption).getD (dsArr 4 (dsVar 12 2 3)), dsB_ok, by decide, by decide, by decide, by decide, by decide, by decide, by decide⟩

end Scipp.Props
