import Verif.Model.DatasetSlice
import Verif.Lemmas.Dataset
import Verif.Lemmas.Squeeze
/-! Lemmas about slicing of datasets. -/
namespace Scipp
open Sizes Props

/-! ### Sizes in another order -/

theorem at?_same {s s' : Sizes} (hs : WF s) (hs' : WF s') (h : SameSizes s s') (x : Dim) : Sizes.at? s x = Sizes.at? s' x := by
  by_cases hx : x ∈ labels s
  · obtain ⟨n, hn⟩ := mem_of_labels hx
    rw [at?_of_mem hs.1 hn, at?_of_mem hs'.1 ((h _).1 hn)]
  · rw [at?_error hx, at?_error (fun hc => hx ((h.labels x).2 hc))]

theorem contains_same {s s' : Sizes} (h : SameSizes s s') (x : Dim) : Sizes.contains s x = Sizes.contains s' x := by
  rw [Bool.eq_iff_iff, contains_iff, contains_iff, h.labels]

theorem isEmpty_same {s s' : Sizes} (h : SameSizes s s') : List.isEmpty s = List.isEmpty s' := by
  cases s with
  | nil =>
    cases s' with
    | nil => rfl
    | cons q s' => exact absurd ((h q).2 (by simp)) (by simp)
  | cons p s =>
    cases s' with
    | nil => exact absurd ((h p).1 (by simp)) (by simp)
    | cons q s' => rfl

theorem isEdges_same {s s' : Sizes} (hs : WF s) (hs' : WF s') (h : SameSizes s s') (dims : Dims) (x : Dim) :
    Sizes.isEdges s dims x = Sizes.isEdges s' dims x := by
  unfold Sizes.isEdges
  have e1 : Sizes.at? s = Sizes.at? s' := funext fun x => at?_same hs hs' h x
  have e2 : Sizes.contains s = Sizes.contains s' := funext fun x => contains_same h x
  rw [e1, e2, isEmpty_same h]

theorem View.slice_asConst (v : View) (p : Slice) : v.asConst.slice p = (v.slice p).map View.asConst := by
  unfold View.slice View.asConst
  simp only [bind, Except.bind]
  cases validSlice v.dims p with
  | error e => rfl
  | ok u =>
    dsimp only
    by_cases hn : p = Slice.none
    · rw [if_pos hn, if_pos hn]; rfl
    · rw [if_neg hn, if_neg hn]
      cases Sizes.index v.dims p.dim with
      | error e => rfl
      | ok i =>
        dsimp only
        by_cases hs : p.stop = -1
        · rw [if_pos hs, if_pos hs]
          cases Sizes.erase v.dims p.dim <;> rfl
        · rw [if_neg hs, if_neg hs]
          cases Sizes.slice v.dims p <;> rfl

/-- Read-only entry. -/
def Entry.asConst (e : Entry) : Entry := { e with view := e.view.asConst }

theorem sliceEntry_asConst {s s' : Sizes} (hs : WF s) (hs' : WF s') (h : SameSizes s s') (p : Slice) (e : Entry) :
    sliceEntry s' p e.asConst = (sliceEntry s p e).map Entry.asConst := by
  unfold sliceEntry
  rw [at?_same hs hs' h]
  have hd : e.asConst.dims = e.dims := rfl
  rw [hd]
  by_cases hc : Sizes.contains e.dims p.dim = true
  · rw [if_pos hc, if_pos hc]
    cases Sizes.at? e.dims p.dim with
    | error err => rfl
    | ok n =>
      cases Sizes.at? s' p.dim with
      | error err => rfl
      | ok m =>
        dsimp only
        cases (if n = m then Except.ok p else edgeSlice p) with
        | error err => rfl
        | ok q =>
          dsimp only [Entry.asConst]
          rw [View.slice_asConst]
          cases e.view.slice q <;> rfl
  · rw [if_neg hc, if_neg hc]
    by_cases hn : p = Slice.none
    · rw [if_pos hn, if_pos hn]; rfl
    · rw [if_neg hn, if_neg hn]; rfl

/-! ### Entries of sliced dictionaries -/

theorem forall₂_lookup {R : Entry → Entry → Prop} : ∀ {l l' : List (Dim × Entry)},
    List.Forall₂ (fun a b => a.1 = b.1 ∧ R a.2 b.2) l l' → ∀ k,
    (lookupEntry l k = none ∧ lookupEntry l' k = none) ∨ ∃ e e', lookupEntry l k = some e ∧ lookupEntry l' k = some e' ∧ R e e'
  | _, _, .nil, k => .inl ⟨rfl, rfl⟩
  | (k1, e) :: l, (k2, e') :: l', .cons h t, k => by
    obtain ⟨h1, h2⟩ := h
    dsimp only at h1 h2
    subst h1
    simp only [lookupEntry]
    by_cases hk : k1 = k
    · rw [if_pos hk, if_pos hk]
      exact .inr ⟨e, e', rfl, rfl, h2⟩
    · rw [if_neg hk, if_neg hk]
      exact forall₂_lookup t k

/-- Whether the loop makes the entry unaligned. -/
def SizedDict.unaligns (d : SizedDict) (p : Slice) (l : List (Dim × Entry)) (k : Dim) : Prop :=
  ∃ q ∈ l, q.1 = k ∧ d.unalignedBySlice p q.1 q.2 = true

open Classical in
theorem align_fold_lookup (d : SizedDict) (p : Slice) : ∀ (l : List (Dim × Entry)) (c c' : SizedDict),
    l.foldlM (d.alignStep p) c = .ok c' → c'.sizes = c.sizes ∧
      ∀ k, lookupEntry c'.items k = (lookupEntry c.items k).map (fun e => if d.unaligns p l k then { e with aligned := false } else e)
  | [], c, c', h => by
    cases h
    refine ⟨rfl, fun k => ?_⟩
    have : ¬ d.unaligns p [] k := fun ⟨q, hq, _⟩ => by simp at hq
    simp only [this, if_false, Option.map_id']
  | q :: l, c, c', h => by
    rw [List.foldlM_cons] at h
    cases h1 : d.alignStep p c q with
    | error e => rw [h1] at h; cases h
    | ok c1 =>
      rw [h1] at h
      obtain ⟨i1, i2⟩ := align_fold_lookup d p l c1 c' h
      unfold SizedDict.alignStep at h1
      by_cases hu : d.unalignedBySlice p q.1 q.2 = true
      · rw [if_pos hu] at h1
        unfold SizedDict.setAligned at h1
        split at h1
        · cases h1
        split at h1
        · cases h1
        rename_i e0 he0
        cases h1
        refine ⟨i1, fun k => ?_⟩
        rw [i2 k]
        dsimp only
        rw [lookup_insert]
        by_cases hk : k = q.1
        · subst hk
          rw [if_pos rfl, he0]
          have : d.unaligns p (q :: l) q.1 := ⟨q, by simp, rfl, hu⟩
          simp only [Option.map_some, this, if_true]
          split <;> rfl
        · rw [if_neg hk]
          have : d.unaligns p (q :: l) k ↔ d.unaligns p l k :=
            ⟨fun ⟨x, hx, h1, h2⟩ => by
              rcases List.mem_cons.1 hx with rfl | hx
              · exact absurd h1.symm hk
              · exact ⟨x, hx, h1, h2⟩, fun ⟨x, hx, h1, h2⟩ => ⟨x, by simp [hx], h1, h2⟩⟩
          simp only [this]
      · rw [if_neg hu] at h1
        cases h1
        refine ⟨i1, fun k => ?_⟩
        rw [i2 k]
        have : d.unaligns p (q :: l) k ↔ d.unaligns p l k :=
          ⟨fun ⟨x, hx, h1, h2⟩ => by
            rcases List.mem_cons.1 hx with rfl | hx
            · exact absurd h2 hu
            · exact ⟨x, hx, h1, h2⟩, fun ⟨x, hx, h1, h2⟩ => ⟨x, by simp [hx], h1, h2⟩⟩
        simp only [this]

theorem slice_lookup {d c : SizedDict} {p : Slice} (hd : d.Ok) (hp : p.Constructed) (h : d.slice p = .ok c) (k : Dim) :
    (lookupEntry d.items k = none ∧ lookupEntry c.items k = none) ∨
    ∃ e e', lookupEntry d.items k = some e ∧ lookupEntry c.items k = some e' ∧ sliceEntry d.sizes p e = .ok e' := by
  obtain ⟨s, hs⟩ := slice_sizes_ok h
  exact forall₂_lookup ((slice_iff hd hp hs).1 c h).2.2 k

/-- An entry after the loop over the alignment flags. -/
def SizedDict.realigned (d : SizedDict) (p : Slice) (k : Dim) (e e' : Entry) : Entry :=
  if d.unalignedBySlice p k e then { e' with aligned := false } else e'

theorem sliceCoords_lookup {d c : SizedDict} {p : Slice} (hd : d.Ok) (hp : p.Constructed) (h : d.sliceCoords p = .ok c) (k : Dim) :
    (lookupEntry d.items k = none ∧ lookupEntry c.items k = none) ∨
    ∃ e e', lookupEntry d.items k = some e ∧ sliceEntry d.sizes p e = .ok e' ∧ lookupEntry c.items k = some (d.realigned p k e e') := by
  unfold SizedDict.sliceCoords at h
  cases hs : d.slice p with
  | error err => rw [hs] at h; cases h
  | ok s =>
    rw [hs] at h
    dsimp only at h
    cases hf : d.items.foldlM (d.alignStep p) { s with readonly := false } with
    | error err => rw [hf] at h; cases h
    | ok c1 =>
      rw [hf] at h
      cases h
      obtain ⟨-, h2⟩ := align_fold_lookup d p _ _ _ hf
      dsimp only
      rw [h2 k]
      rcases slice_lookup hd hp hs k with ⟨g1, g2⟩ | ⟨e, e', g1, g2, g3⟩
      · exact .inl ⟨g1, by rw [g2]; rfl⟩
      · refine .inr ⟨e, e', g1, g3, ?_⟩
        rw [g2]
        have : d.unaligns p d.items k ↔ d.unalignedBySlice p k e = true := by
          constructor
          · rintro ⟨⟨k', x⟩, hq, h1, h3⟩
            dsimp only at h1 h3
            subst h1
            have := lookup_of_mem hd.2.1 hq
            rw [g1] at this
            cases this
            exact h3
          · exact fun h => ⟨(k, e), lookup_mem g1, rfl, h⟩
        simp only [Option.map_some, this, SizedDict.realigned]

theorem sliceCoords_exists {d : SizedDict} {p : Slice} (hd : d.Ok) (hp : p.Constructed) {s : Sizes} (hs : Sizes.slice d.sizes p = .ok s)
    (h : ∀ q ∈ d.items, ∃ e', sliceEntry d.sizes p q.2 = .ok e') : ∃ c, d.sliceCoords p = .ok c ∧ c.sizes = s ∧ c.Ok := by
  obtain ⟨c, hc⟩ := (slice_iff hd hp hs).2 h
  obtain ⟨-, h1, h2⟩ := (slice_iff hd hp hs).1 c hc
  have hk : c.items.map Prod.fst = d.items.map Prod.fst := by
    clear hc h
    generalize d.items = l, c.items = l' at h2
    induction h2 with
    | nil => rfl
    | cons a t ih => simp only [List.map_cons, a.1, ih]
  obtain ⟨c', g1, g2, g3⟩ := align_fold d p d.items { c with readonly := false } rfl
    (fun q hq => by show q.1 ∈ c.items.map Prod.fst; rw [hk]; exact List.mem_map_of_mem hq)
  have : d.sliceCoords p = .ok { c' with readonly := true } := by
    unfold SizedDict.sliceCoords
    rw [hc]
    dsimp only
    rw [g1]
  exact ⟨_, this, g3.trans h1, sliceCoords_Ok hd hp this⟩

/-! ### Slices of data arrays and items -/

theorem sizes_slice_iff {s : Sizes} (hs : WF s) {p : Slice} (hp : p.Constructed) :
    (∃ s', Sizes.slice s p = .ok s') ↔ ∃ m, (p.dim, m) ∈ s ∧ if p.stop = -1 then p.start < m else p.stop ≤ m := by
  constructor
  · rintro ⟨s', h⟩
    exact (sizes_slice_facts hs.1 hp h).1
  · intro h
    have hw : (⟨s, s.map (fun _ => 0), 0, false⟩ : View).WF := ⟨hs, by simp, fun x hx => by
      obtain ⟨_, _, rfl⟩ := List.mem_map.1 hx
      exact Int.le_refl 0⟩
    obtain ⟨v', hv⟩ := (C04_slice_accepts_iff _ p hw hp).1.2 h
    exact ⟨_, View.slice_dims hv⟩

theorem slice_same {s s' t t' : Sizes} (hs : WF s) (hs' : WF s') {p : Slice} (hp : p.Constructed) (h : SameSizes s s')
    (ht : Sizes.slice s p = .ok t) (ht' : Sizes.slice s' p = .ok t') : SameSizes t t' := by
  obtain ⟨-, A, -, R, P⟩ := sizes_slice_facts hs.1 hp ht
  obtain ⟨-, A', -, R', P'⟩ := sizes_slice_facts hs'.1 hp ht'
  rintro ⟨x, n⟩
  by_cases hx : x = p.dim
  · subst hx
    by_cases hst : p.stop = -1
    · exact ⟨fun h => absurd (mem_labels h) (P hst), fun h => absurd (mem_labels h) (P' hst)⟩
    · rw [R hst, R' hst]
  · rw [A x n hx, A' x n hx, h (x, n)]

theorem sliceEntry_iff {sizes : Sizes} {e : Entry} {p : Slice} (hs : WF sizes) (he : EntryOk sizes e) (hp : p.Constructed)
    {sizes' : Sizes} (h : Sizes.slice sizes p = .ok sizes') :
    (∃ e', sliceEntry sizes p e = .ok e') ↔ p.stride = 1 ∨ ∀ m, (p.dim, m) ∈ sizes → (p.dim, m + 1) ∉ e.dims := by
  refine ⟨fun ⟨e', h1⟩ => ?_, (sliceEntry_spec hs he hp h).2⟩
  by_contra hc
  rw [not_or] at hc
  obtain ⟨h2, h3⟩ := hc
  refine h3 fun m hm hn => ?_
  rw [sliceEntry_of_edges hs he.1 hn hm (by omega)] at h1
  cases hq : edgeSlice p with
  | error err => rw [hq] at h1; cases h1
  | ok q => exact h2 (edgeSlice_ok hp hq).1

theorem dict_slice_iff {d : SizedDict} {p : Slice} (hd : d.Ok) (hp : p.Constructed) {sizes' : Sizes} (h : Sizes.slice d.sizes p = .ok sizes') :
    (∃ c, d.slice p = .ok c) ↔ p.stride = 1 ∨ ∀ q ∈ d.items, ∀ m, (p.dim, m) ∈ d.sizes → (p.dim, m + 1) ∉ q.2.dims := by
  constructor
  · rintro ⟨c, hc⟩
    by_cases hs : p.stride = 1
    · exact .inl hs
    · refine .inr fun q hq => ?_
      obtain ⟨b, -, -, hb⟩ := forall₂_left ((slice_iff hd hp h).1 c hc).2.2 hq
      exact ((sliceEntry_iff hd.1 (hd.2.2 q hq) hp h).1 ⟨_, hb⟩).resolve_left hs
  · intro hc
    exact (slice_iff hd hp h).2 fun q hq => (sliceEntry_iff hd.1 (hd.2.2 q hq) hp h).2 (hc.imp id fun hc => hc q hq)

theorem coords_slice_iff {d : SizedDict} {p : Slice} (hd : d.Ok) (hp : p.Constructed) {sizes' : Sizes} (h : Sizes.slice d.sizes p = .ok sizes') :
    (∃ c, d.sliceCoords p = .ok c) ↔ ∃ c, d.slice p = .ok c := by
  constructor
  · rintro ⟨c, hc⟩
    unfold SizedDict.sliceCoords at hc
    cases hs : d.slice p with
    | error err => rw [hs] at hc; cases hc
    | ok s => exact ⟨s, rfl⟩
  · rintro ⟨c, hc⟩
    obtain ⟨c', h1, -⟩ := sliceCoords_exists hd hp h fun q hq => by
      obtain ⟨b, -, -, hb⟩ := forall₂_left ((slice_iff hd hp h).1 c hc).2.2 hq
      exact ⟨_, hb⟩
    exact ⟨c', h1⟩

theorem sliceCoords_sizes {d c : SizedDict} {p : Slice} (hd : d.Ok) (hp : p.Constructed) (h : d.sliceCoords p = .ok c) :
    Sizes.slice d.sizes p = .ok c.sizes := by
  unfold SizedDict.sliceCoords at h
  cases hs : d.slice p with
  | error err => rw [hs] at h; cases h
  | ok s =>
    rw [hs] at h
    dsimp only at h
    obtain ⟨t, ht⟩ := slice_sizes_ok hs
    have := ((slice_iff hd hp ht).1 s hs).2.1
    cases hf : d.items.foldlM (d.alignStep p) { s with readonly := false } with
    | error err => rw [hf] at h; cases h
    | ok c1 =>
      rw [hf] at h
      cases h
      have h2 := (align_fold_lookup d p _ _ _ hf).1
      dsimp only at h2 ⊢
      rw [h2, this, ht]

theorem setSizes_eq {d d' : SizedDict} {s : Sizes} (h : d.setSizes s = .ok d') : d' = { d with sizes := s } := by
  unfold SizedDict.setSizes at h
  split at h <;> cases h
  rfl

/-- The parts of a sliced data array. -/
def DArray.SlicedTo (a : DArray) (p : Slice) (v : View) (c m t : SizedDict) : Prop :=
  a.data.view.slice p = .ok v ∧ a.coords.sliceCoords p = .ok c ∧ a.masks.slice p = .ok m ∧ a.attrs.slice p = .ok t

theorem array_slice_ok {a r : DArray} {p : Slice} (h : a.slice p = .ok r) :
    ∃ v c m t, a.SlicedTo p v c m t ∧ r = ⟨{ a.data with view := v }, { c with sizes := v.dims }, { m with sizes := v.dims }, { t with sizes := v.dims }⟩ := by
  unfold DArray.slice at h
  simp only [bind, Except.bind] at h
  split at h
  · cases h
  rename_i v hv
  split at h
  · cases h
  rename_i c hc
  split at h
  · cases h
  rename_i m hm
  split at h
  · cases h
  rename_i t ht
  split at h
  · cases h
  rename_i c' hc'
  split at h
  · cases h
  rename_i m' hm'
  split at h
  · cases h
  rename_i t' ht'
  cases h
  refine ⟨v, c, m, t, ⟨hv, hc, hm, ht⟩, ?_⟩
  rw [setSizes_eq hc', setSizes_eq hm', setSizes_eq ht']

theorem array_slice_of {a : DArray} {p : Slice} (ha : a.Ok) (hp : p.Constructed) {v : View} {c m t : SizedDict} (h : a.SlicedTo p v c m t) :
    a.slice p = .ok ⟨{ a.data with view := v }, { c with sizes := v.dims }, { m with sizes := v.dims }, { t with sizes := v.dims }⟩ ∧
    DArray.Ok ⟨{ a.data with view := v }, { c with sizes := v.dims }, { m with sizes := v.dims }, { t with sizes := v.dims }⟩ := by
  obtain ⟨hv, hc, hm, ht⟩ := h
  have hvw := View.slice_wf ha.data hp hv
  have hvd := View.slice_dims hv
  have hcs := slice_same ha.coords.1.1 ha.data.1 hp ha.coords.2 (sliceCoords_sizes ha.coords.1 hp hc) hvd
  have hsz : ∀ {d d' : SizedDict}, d.Ok → d.slice p = .ok d' → Sizes.slice d.sizes p = .ok d'.sizes := fun hd h => by
    obtain ⟨s, hs⟩ := slice_sizes_ok h
    rw [((slice_iff hd hp hs).1 _ h).2.1]
    exact hs
  have hms := slice_same ha.masks.1.1 ha.data.1 hp ha.masks.2 (hsz ha.masks.1 hm) hvd
  have hts := slice_same ha.attrs.1.1 ha.data.1 hp ha.attrs.2 (hsz ha.attrs.1 ht) hvd
  obtain ⟨c6, c7⟩ := setSizes_same (sliceCoords_Ok ha.coords.1 hp hc) hvw.1 hcs
  obtain ⟨m6, m7⟩ := setSizes_same (slice_Ok ha.masks.1 hp hm) hvw.1 hms
  obtain ⟨t6, t7⟩ := setSizes_same (slice_Ok ha.attrs.1 hp ht) hvw.1 hts
  refine ⟨?_, hvw, ⟨c7, .rfl'⟩, ⟨m7, .rfl'⟩, ⟨t7, .rfl'⟩⟩
  unfold DArray.slice
  simp only [hv, hc, hm, ht, c6, m6, t6, bind, Except.bind]
  rfl

theorem item_array_ok {sizes : Sizes} {it : DItem} (h : it.Fits sizes) : it.array.Ok :=
  ⟨h.data, ⟨⟨h.data.1, List.nodup_nil, fun p hp => nomatch hp⟩, .rfl'⟩, h.masks, h.attrs⟩

theorem sliceItem_eq {sizes : Sizes} (hs : WF sizes) {it : DItem} (h : it.Fits sizes) {p : Slice} (hp : p.dim ∈ labels sizes) :
    sliceItem sizes p it = it.array.slice p := by
  unfold sliceItem
  have hd : p.dim ∈ labels it.data.dims := (h.dims.labels _).2 hp
  rw [if_pos (contains_iff.2 hd)]
  obtain ⟨n, hn⟩ := mem_of_labels hd
  simp only [at?_of_mem h.data.1.1 hn, at?_of_mem hs.1 ((h.dims _).1 hn), bind, Except.bind, if_true]

/-- The item of a dataset made of a data array. -/
def DArray.item (a : DArray) : DItem := ⟨a.data, a.masks, a.attrs⟩

theorem setDataArray_new (eq eqn : Entry → Entry → Bool) {d : Dset} (hr : d.readonly = false) (hv : d.valid = true) {k : Dim}
    (hk : k ∉ d.items.map Prod.fst) {a : DArray} (hc : a.coords.items = []) (hs : Sizes.eqMap d.coords.sizes a.data.dims = true) :
    d.setDataArray eq eqn k a = ({ d with items := d.items ++ [(k, a.item)] }, none) := by
  have hl : lookupEntry d.items k = none := lookup_none.2 hk
  unfold Dset.setDataArray Dset.selfAssign
  rw [hl]
  dsimp only
  rw [hc]
  simp only [coordsToSkip, Dset.setData, (usable_iff d).2 ⟨hr, hv⟩, hs, Dset.newItem, hl, Dset.setCoordsOf, Dset.setMeta, Bool.true_eq_false, if_false]
  rw [lookup_insert, if_pos rfl]
  dsimp only
  rw [insert_append hk]
  have : ∀ (l : List (Dim × DItem)) (x y : DItem), k ∉ l.map Prod.fst → insertEntry (l ++ [(k, x)]) k y = l ++ [(k, y)] := by
    intro l x y hl
    induction l with
    | nil => simp [insertEntry]
    | cons q l ih =>
      simp only [List.map_cons, List.mem_cons, not_or] at hl
      simp only [List.cons_append, insertEntry]
      rw [if_neg (fun h => hl.1 h.symm), ih hl.2]
  rw [this _ _ _ hk]
  rfl

theorem addAll_new (eq eqn : Entry → Entry → Bool) : ∀ (l : List (Dim × DArray)) {d : Dset}, d.readonly = false → d.valid = true →
    ((d.items.map Prod.fst) ++ l.map Prod.fst).Nodup → (∀ q ∈ l, q.2.coords.items = [] ∧ Sizes.eqMap d.coords.sizes q.2.data.dims = true) →
    Dset.addAll eq eqn d l = .ok { d with items := d.items ++ l.map (fun q => (q.1, q.2.item)) }
  | [], d, _, _, _, _ => by simp [Dset.addAll]
  | (k, a) :: l, d, hr, hv, hn, ha => by
    have hk : k ∉ d.items.map Prod.fst := fun hk => by
      rw [List.map_cons, List.nodup_append] at hn
      exact hn.2.2 k hk k (by simp) rfl
    simp only [Dset.addAll]
    rw [setDataArray_new eq eqn hr hv hk (ha (k, a) (by simp)).1 (ha (k, a) (by simp)).2]
    dsimp only
    rw [addAll_new eq eqn l (d := { d with items := d.items ++ [(k, a.item)] }) hr hv (by simpa using hn) (fun q hq => ha q (by simp [hq]))]
    simp

theorem sliceItems_ok {sizes : Sizes} {p : Slice} : ∀ (l : List (Dim × DItem)) {l' : List (Dim × DArray)},
    sliceItems sizes p l = .ok l' → List.Forall₂ (fun q r => q.1 = r.1 ∧ sliceItem sizes p q.2 = .ok r.2) l l'
  | [], l', h => by cases h; exact .nil
  | (k, it) :: l, l', h => by
    simp only [sliceItems, bind, Except.bind] at h
    split at h
    · cases h
    rename_i a ha
    split at h
    · cases h
    rename_i r hr
    cases h
    exact .cons ⟨rfl, ha⟩ (sliceItems_ok l hr)

theorem sliceItems_exists {sizes : Sizes} {p : Slice} : ∀ (l : List (Dim × DItem)),
    (∀ q ∈ l, ∃ a, sliceItem sizes p q.2 = .ok a) → ∃ l', sliceItems sizes p l = .ok l'
  | [], _ => ⟨[], rfl⟩
  | (k, it) :: l, h => by
    obtain ⟨a, ha⟩ := h (k, it) (by simp)
    obtain ⟨r, hr⟩ := sliceItems_exists l (fun q hq => h q (by simp [hq]))
    exact ⟨(k, a) :: r, by simp only [sliceItems, ha, hr, bind, Except.bind]; rfl⟩

theorem forall₂_keys {α β : Type} {R : α → β → Prop} {l : List (Dim × α)} {l' : List (Dim × β)}
    (h : List.Forall₂ (fun q r => q.1 = r.1 ∧ R q.2 r.2) l l') : l'.map Prod.fst = l.map Prod.fst := by
  induction h with
  | nil => rfl
  | cons a t ih => simp only [List.map_cons, a.1, ih]

theorem sliceCoords_empty {s : Sizes} {p : Slice} {c : SizedDict} {ro : Bool} (h : SizedDict.sliceCoords ⟨s, [], ro⟩ p = .ok c) : c.items = [] := by
  unfold SizedDict.sliceCoords SizedDict.slice at h
  cases hs : Sizes.slice s p with
  | error err => simp only [hs] at h; cases h
  | ok t =>
    simp only [hs, sliceMap, SizedDict.ofItems, List.foldlM_nil, pure, Except.pure] at h
    cases h
    rfl

/-- A sliced dataset in terms of its parts. -/
theorem dset_slice_ok {eq eqn : Entry → Entry → Bool} {d : Dset} (hd : d.Ok) {p : Slice} (hp : p.Constructed) (d' : Dset) :
    d.slice eq eqn p = .ok d' ↔ ∃ (c : SizedDict) (l : List (Dim × DArray)), d.coords.sliceCoords p = .ok c ∧
      List.Forall₂ (fun q r => q.1 = r.1 ∧ q.2.array.slice p = .ok r.2) d.items l ∧
      d' = ⟨c, l.map (fun q => (q.1, q.2.item)), true, true⟩ := by
  have key : ∀ {c}, d.coords.sliceCoords p = .ok c → ∀ l : List (Dim × DArray), List.Forall₂ (fun q r => q.1 = r.1 ∧ q.2.array.slice p = .ok r.2) d.items l →
      ∃ s, Dset.ofArrays eq eqn l = .ok ⟨⟨s, [], false⟩, l.map (fun q => (q.1, q.2.item)), false, true⟩ := by
    intro c hc l hl
    cases l with
    | nil => exact ⟨[], rfl⟩
    | cons q l =>
      refine ⟨q.2.data.dims, ?_⟩
      have hkeys := forall₂_keys (R := fun x y => DArray.slice (DItem.array x) p = .ok y) hl
      have hx : ∀ r ∈ q :: l, r.2.coords.items = [] ∧ WF r.2.data.dims ∧ SameSizes r.2.data.dims c.sizes := by
        intro r hr
        obtain ⟨b, hb, hb1, hb2⟩ := forall₂_left hl.flip hr
        have hf := hd.items b hb
        obtain ⟨v, c', m, t, g1, g2⟩ := array_slice_ok hb2
        have hw := View.slice_wf hf.data hp g1.1
        rw [g2]
        exact ⟨sliceCoords_empty (c := c') (s := b.2.data.dims) (ro := false) g1.2.1, hw.1, slice_same hf.data.1 hd.coords.1 hp hf.dims (View.slice_dims g1.1) (sliceCoords_sizes hd.coords hp hc)⟩
      unfold Dset.ofArrays
      dsimp only
      rw [addAll_new eq eqn _ rfl rfl]
      · simp
      · simp only [List.map_nil, List.nil_append]
        rw [hkeys]
        exact hd.names
      · intro r hr
        obtain ⟨h1, h2, h3⟩ := hx r hr
        obtain ⟨_, g2, g3⟩ := hx q (by simp)
        exact ⟨h1, (eqMap_iff g2 h2).2 (g3.trans h3.symm)⟩
  have hdim : ∀ {c}, d.coords.sliceCoords p = .ok c → p.dim ∈ labels d.coords.sizes := by
    intro c hc
    obtain ⟨⟨m, hm, -⟩, -⟩ := sizes_slice_facts hd.coords.1.1 hp (sliceCoords_sizes hd.coords hp hc)
    exact mem_labels hm
  constructor
  · intro h
    simp only [Dset.slice, bind, Except.bind] at h
    split at h
    · cases h
    rename_i l hl
    split at h
    · cases h
    rename_i out ho
    split at h
    · cases h
    rename_i c hc
    have hl2 : List.Forall₂ (fun q r => q.1 = r.1 ∧ q.2.array.slice p = .ok r.2) d.items l := by
      have := sliceItems_ok _ hl
      have hdm := hdim hc
      have hall := hd.items
      clear hl ho h
      generalize d.items = its at this hall
      induction this with
      | nil => exact .nil
      | cons a t ih =>
        rw [sliceItem_eq hd.coords.1 (hall _ (by simp)) hdm] at a
        exact .cons a (ih fun q hq => hall q (by simp [hq]))
    obtain ⟨s, hs⟩ := key hc l hl2
    rw [hs] at ho
    cases ho
    cases h
    exact ⟨c, l, hc, hl2, rfl⟩
  · rintro ⟨c, l, hc, hl, rfl⟩
    have hdm := hdim hc
    have hsl : sliceItems d.coords.sizes p d.items = .ok l := by
      have hall := hd.items
      clear key
      generalize d.items = its at hl hall
      induction hl with
      | nil => rfl
      | cons a t ih =>
        rename_i q r its' l'
        obtain ⟨qk, qi⟩ := q
        obtain ⟨rk, ra⟩ := r
        obtain ⟨a1, a2⟩ := a
        dsimp only at a1 a2
        subst a1
        simp only [sliceItems, sliceItem_eq hd.coords.1 (hall _ (List.mem_cons_self ..)) hdm, a2, ih fun q hq => hall q (by simp [hq]), bind, Except.bind]
        rfl
    obtain ⟨s, hs⟩ := key hc l hl
    simp only [Dset.slice, hsl, hs, hc, bind, Except.bind]
    rfl

end Scipp
