import Verif.Model.Squeeze
import Verif.Lemmas.Dataset
import Verif.Lemmas.Masks3
import Verif.Props.SizedDict
/-!
# C33, C35: read-only dictionaries, merging of dictionaries

Coords, masks and attrs of slices are read-only, copies are not.
-/
namespace Scipp.Props
open Sizes

/-- The flag of the result: slices and `as_const` are read-only, copies are not, other operations keep the flag. -/
def flagAfter (before : Bool) : SizedDictOp → Bool
  | .slice _ | .sliceCoords _ | .asConst => true
  | .renameDims _ | .copy => false
  | .set _ _ | .erase _ | .setAligned _ _ | .mergeFrom _ | .setSizes _ => before

private theorem ofItems_flag {s : Sizes} {items : List (Dim × Entry)} {ro : Bool} {d : SizedDict} (h : SizedDict.ofItems s items ro = .ok d) : d.readonly = ro := by
  unfold SizedDict.ofItems at h
  split at h
  · cases h
  · cases h; rfl

private theorem insert_flag {d d' : SizedDict} {k : Dim} {e : Entry} (h : d.insert k e = .ok d') : d'.readonly = d.readonly := by
  obtain ⟨-, rfl⟩ := insert_ok h
  rfl

/-- **C33** (dictionaries): whether the result of an operation is read-only. -/
theorem C33_dict_flag (d d' : SizedDict) (op : SizedDictOp) (h : op.apply d = .ok d') : d'.readonly = flagAfter d.readonly op := by
  cases op with
  | set k e =>
    simp only [SizedDictOp.apply, SizedDict.set] at h
    split at h
    · split at h
      · cases h; rfl
      · exact insert_flag h
    · exact insert_flag h
  | erase k =>
    simp only [SizedDictOp.apply, SizedDict.erase] at h
    split at h
    · cases h
    · split at h <;> cases h
      rfl
  | setAligned k a =>
    simp only [SizedDictOp.apply, SizedDict.setAligned] at h
    split at h
    · cases h
    · split at h <;> cases h
      rfl
  | slice p =>
    simp only [SizedDictOp.apply, SizedDict.slice] at h
    split at h
    · cases h
    · split at h
      · cases h
      · exact ofItems_flag h
  | sliceCoords p =>
    simp only [SizedDictOp.apply, SizedDict.sliceCoords] at h
    split at h
    · cases h
    · split at h <;> cases h
      rfl
  | renameDims names =>
    simp only [SizedDictOp.apply, SizedDict.renameDims] at h
    split at h
    · cases h
    · split at h <;> cases h
      rfl
  | asConst => exact ofItems_flag h
  | copy => cases h; rfl
  | mergeFrom o =>
    simp only [SizedDictOp.apply, SizedDict.mergeFrom] at h
    split at h
    · cases h
    · cases h; rfl
  | setSizes s =>
    simp only [SizedDictOp.apply, SizedDict.setSizes] at h
    split at h <;> cases h
    rfl

/-- **C33** (dictionaries): a read-only dictionary cannot be modified: inserting, erasing and changing the alignment fail, except that an item may be set
to the variable it refers to already, which has no effect. -/
theorem C33_dict_readonly (d : SizedDict) (hr : d.readonly = true) (k : Dim) :
    (∀ e d', d.set k e = .ok d' → d' = d) ∧ (∃ err, d.erase k = .error err) ∧ ∀ a, ∃ err, d.setAligned k a = .error err := by
  refine ⟨fun e d' h => ?_, ⟨.dataArray, by simp [SizedDict.erase, hr]⟩, fun a => ⟨.dataArray, by simp [SizedDict.setAligned, hr]⟩⟩
  have hins : ∀ d', d.insert k e ≠ .ok d' := fun d' h => by
    have := (insert_ok h).1
    rw [hr] at this
    cases this
  unfold SizedDict.set at h
  split at h
  · split at h
    · cases h; rfl
    · exact absurd h (hins _)
  · exact absurd h (hins _)

/-- **C33** (dictionaries): `as_const` of a dictionary has the same items, all of them read-only. -/
theorem C33_dict_as_const (d : SizedDict) (hd : d.Ok) :
    d.asConst = .ok ⟨d.sizes, d.items.map fun p => (p.1, { p.2 with view := { p.2.view with readonly := true } }), true⟩ := by
  unfold SizedDict.asConst
  refine ofItems_exists hd.1 _ ?_ ?_
  · rw [List.map_map]
    exact hd.2.1
  · intro q hq
    obtain ⟨p, hp, rfl⟩ := List.mem_map.1 hq
    have := hd.2.2 p hp
    exact ⟨⟨this.1.1, this.1.2⟩, this.2.1, this.2.2⟩

private theorem merge_fold : ∀ (l : List (Dim × Entry)) (d : SizedDict), WF d.sizes → d.readonly = false → (l.map Prod.fst).Nodup → (∀ p ∈ l, p.2.view.WF) →
    ((∃ r, l.foldlM SizedDict.mergeStep d = .ok r) ↔ (∀ p ∈ l, p.1 ∉ d.items.map Prod.fst) ∧ ∀ p ∈ l, p.2.binned = false ∧ Fits d.sizes p.2.dims) ∧
    ∀ r, l.foldlM SizedDict.mergeStep d = .ok r → r = { d with items := d.items ++ l }
  | [], d, _, _, _, _ => by
    refine ⟨⟨fun _ => ⟨by simp, by simp⟩, fun _ => ⟨d, rfl⟩⟩, fun r h => ?_⟩
    cases h
    simp
  | (k, e) :: l, d, hs, hr, hn, hw => by
    rw [List.foldlM_cons]
    simp only [List.map_cons, List.nodup_cons] at hn
    cases hl : lookupEntry d.items k with
    | some cur =>
      have : SizedDict.mergeStep d (k, e) = .error .dataArray := by
        unfold SizedDict.mergeStep
        simp only [hl]
      rw [this]
      refine ⟨⟨fun h => (by obtain ⟨r, h⟩ := h; cases h), fun h => absurd (h.1 (k, e) (by simp)) ?_⟩, fun r h => (by cases h)⟩
      exact fun h => h (List.mem_map.2 ⟨(k, cur), lookup_mem hl, rfl⟩)
    | none =>
      have hstep : SizedDict.mergeStep d (k, e) = d.insert k e := by
        unfold SizedDict.mergeStep
        simp only [hl]
        unfold SizedDict.set
        rw [hl]
      rw [hstep]
      have hk := lookup_none.1 hl
      have hi := insert_iff (key := k) hs hr (hw (k, e) (by simp))
      cases h1 : d.insert k e with
      | error err =>
        refine ⟨⟨fun h => (by obtain ⟨r, h⟩ := h; cases h), fun h => ?_⟩, fun r h => (by cases h)⟩
        obtain ⟨d', hd'⟩ := hi.2 (h.2 (k, e) (by simp))
        rw [h1] at hd'
        cases hd'
      | ok d1 =>
        obtain ⟨-, rfl⟩ := insert_ok h1
        have hf := hi.1 ⟨_, h1⟩
        obtain ⟨g1, g2⟩ := merge_fold l { d with items := insertEntry d.items k e } hs hr hn.2 (fun p hp => hw p (by simp [hp]))
        simp only [insert_append hk] at g1 g2 ⊢
        refine ⟨?_, fun r h => ?_⟩
        · refine Iff.trans g1 ?_
          simp only [List.mem_cons, forall_eq_or_imp, List.map_append, List.map_cons, List.map_nil, List.mem_append, List.not_mem_nil, or_false, not_or]
          constructor
          · rintro ⟨a, b⟩
            exact ⟨⟨hk, fun p hp => (a p hp).1⟩, hf, b⟩
          · rintro ⟨a, b⟩
            exact ⟨fun p hp => ⟨a.2 p hp, fun hpk => hn.1 (hpk ▸ List.mem_map_of_mem (f := Prod.fst) hp)⟩, b.2⟩
        · rw [g2 r h]
          simp

/-- **C35** (merging): merging the items of another dictionary succeeds exactly if no name is in both and all items fit; the result has the items of both. It does not
matter whether the dictionary is read-only: the result is a new one. -/
theorem C35_merge_from (d o : SizedDict) (hd : d.Ok) (ho : o.Ok) :
    ((∃ r, d.mergeFrom o = .ok r) ↔ (∀ k ∈ o.items.map Prod.fst, k ∉ d.items.map Prod.fst) ∧ ∀ p ∈ o.items, Fits d.sizes p.2.dims) ∧
    ∀ r, d.mergeFrom o = .ok r → r = { d with items := d.items ++ o.items } := by
  obtain ⟨h1, h2⟩ := merge_fold o.items { d with readonly := false } hd.1 rfl ho.2.1 (fun p hp => (ho.2.2 p hp).1)
  have hiff : ((∀ p ∈ o.items, p.1 ∉ d.items.map Prod.fst) ∧ ∀ p ∈ o.items, p.2.binned = false ∧ Fits d.sizes p.2.dims) ↔
      (∀ k ∈ o.items.map Prod.fst, k ∉ d.items.map Prod.fst) ∧ ∀ p ∈ o.items, Fits d.sizes p.2.dims := by
    constructor
    · rintro ⟨a, b⟩
      refine ⟨fun k hk => ?_, fun p hp => (b p hp).2⟩
      obtain ⟨p, hp, rfl⟩ := List.mem_map.1 hk
      exact a p hp
    · rintro ⟨a, b⟩
      exact ⟨fun p hp => a _ (List.mem_map_of_mem hp), fun p hp => ⟨(ho.2.2 p hp).2.1, b p hp⟩⟩
  unfold SizedDict.mergeFrom
  cases hf : o.items.foldlM SizedDict.mergeStep { d with readonly := false } with
  | error err =>
    rw [hf] at h1
    refine ⟨⟨fun h => (by obtain ⟨r, h⟩ := h; cases h), fun h => ?_⟩, fun r h => (by cases h)⟩
    obtain ⟨r, hr⟩ := h1.2 (hiff.2 h)
    cases hr
  | ok c =>
    refine ⟨⟨fun _ => hiff.1 (h1.1 ⟨c, hf⟩), fun _ => ⟨_, rfl⟩⟩, fun r h => ?_⟩
    cases h
    rw [h2 c hf]

/-- **C35** (meta): `meta()` of a data array is the read-only union of attrs and coords; it fails exactly if a name is in both. -/
theorem C35_meta (a : DArray) (ha : a.Ok) :
    ((∃ r, a.meta = .ok r) ↔ ∀ k ∈ a.coords.items.map Prod.fst, k ∉ a.attrs.items.map Prod.fst) ∧
    ∀ r, a.meta = .ok r → r.Ok ∧ r.items = a.attrs.items ++ a.coords.items ∧ r.readonly = true := by
  obtain ⟨h1, h2⟩ := C35_merge_from a.attrs a.coords ha.attrs.1 ha.coords.1
  have hfit : ∀ p ∈ a.coords.items, Fits a.attrs.sizes p.2.dims := fun p hp =>
    (ha.coords.1.2.2 p hp).2.2.same (ha.coords.2.trans ha.attrs.2.symm)
  unfold DArray.meta
  cases hm : a.attrs.mergeFrom a.coords with
  | error err =>
    refine ⟨⟨fun h => (by obtain ⟨r, h⟩ := h; cases h), fun h => ?_⟩, fun r h => (by cases h)⟩
    obtain ⟨r, hr⟩ := h1.2 ⟨h, hfit⟩
    rw [hm] at hr
    cases hr
  | ok c =>
    refine ⟨⟨fun _ => (h1.1 ⟨c, hm⟩).1, fun _ => ⟨_, rfl⟩⟩, fun r h => ?_⟩
    have hc := mergeFrom_Ok ha.attrs.1 ha.coords.1 hm
    rw [h2 c hm] at hc
    cases h
    rw [h2 c hm]
    exact ⟨⟨hc.1, hc.2.1, hc.2.2⟩, rfl, rfl⟩

private theorem lookup_erase {α : Type} : ∀ (l : List (Dim × α)) (key : Dim), (l.map Prod.fst).Nodup → ∀ k,
    lookupEntry (eraseEntry l key) k = if k = key then none else lookupEntry l k
  | [], key, _, k => by simp [eraseEntry, lookupEntry]
  | (k', e) :: l, key, hn, k => by
    rw [List.map_cons, List.nodup_cons] at hn
    have ih := lookup_erase l key hn.2 k
    simp only [eraseEntry]
    by_cases hk : k' = key
    · subst hk
      rw [if_pos rfl]
      by_cases hkk : k = k'
      · subst hkk
        rw [if_pos rfl]
        exact lookup_none.2 hn.1
      · rw [if_neg hkk]
        simp only [lookupEntry]
        rw [if_neg (fun h => hkk h.symm)]
    · rw [if_neg hk]
      simp only [lookupEntry]
      by_cases hkk : k' = k
      · subst hkk
        rw [if_pos rfl, if_neg hk, if_pos rfl]
      · rw [if_neg hkk, if_neg hkk, ih]

private theorem erase_sublist {α : Type} (key : Dim) : ∀ l : List (Dim × α), (eraseEntry l key).Sublist l
  | [] => List.Sublist.slnil
  | (k', e) :: l => by
    simp only [eraseEntry]
    split
    · exact List.sublist_cons_self _ _
    · exact (erase_sublist key l).cons₂ _

/-- **C35** (erase): an item can be erased exactly if the dictionary is writable and has an item of that name. Then that item is
gone, and all others stay, in the same order. -/
theorem C35_erase (d : SizedDict) (hd : d.Ok) (key : Dim) :
    ((∃ d', d.erase key = .ok d') ↔ d.readonly = false ∧ key ∈ d.items.map Prod.fst) ∧
    ∀ d', d.erase key = .ok d' → d'.sizes = d.sizes ∧ d'.items.Sublist d.items ∧
      ∀ k, lookupEntry d'.items k = if k = key then none else lookupEntry d.items k := by
  unfold SizedDict.erase
  cases hr : d.readonly with
  | true => exact ⟨⟨fun h => (by obtain ⟨_, h⟩ := h; cases h), fun h => (by cases h.1)⟩, fun _ h => (by cases h)⟩
  | false =>
    simp only [Bool.false_eq_true, if_false, true_and]
    cases hl : lookupEntry d.items key with
    | none =>
      exact ⟨⟨fun h => (by obtain ⟨_, h⟩ := h; cases h), fun h => absurd h (lookup_none.1 hl)⟩, fun _ h => (by cases h)⟩
    | some e =>
      refine ⟨⟨fun _ => List.mem_map_of_mem (f := Prod.fst) (lookup_mem hl), fun _ => ⟨_, rfl⟩⟩, fun d' h => ?_⟩
      cases h
      exact ⟨rfl, erase_sublist key d.items, lookup_erase d.items key hd.2.1⟩

/-- **C53** (erase): the same for items of a dataset, which is left as it is if there is no such item. -/
theorem C53_erase (d : Dset) (hn : (d.items.map Prod.fst).Nodup) (name : Dim) :
    ((d.erase name).2 = none ↔ d.readonly = false ∧ name ∈ d.items.map Prod.fst) ∧
    ((d.erase name).2 ≠ none → (d.erase name).1 = d) ∧
    ((d.erase name).2 = none → (d.erase name).1.coords = d.coords ∧ (d.erase name).1.items.Sublist d.items ∧
      ∀ k, lookupEntry (d.erase name).1.items k = if k = name then none else lookupEntry d.items k) := by
  unfold Dset.erase
  cases hr : d.readonly with
  | true => simp
  | false =>
    simp only [Bool.false_eq_true, if_false, true_and]
    cases hl : lookupEntry d.items name with
    | none => exact ⟨⟨fun h => (by cases h), fun h => absurd h (lookup_none.1 hl)⟩, fun _ => rfl, fun h => (by cases h)⟩
    | some e =>
      exact ⟨⟨fun _ => List.mem_map_of_mem (f := Prod.fst) (lookup_mem hl), fun _ => rfl⟩, fun h => absurd rfl h,
        fun _ => ⟨rfl, erase_sublist name d.items, lookup_erase d.items name hn⟩⟩

private def fd : SizedDict := ⟨[(1, 3), (2, 2)], [(1, ⟨⟨[(1, 4)], [1], 0, false⟩, 0, true, false⟩)], true⟩
private def fo : SizedDict := ⟨[(1, 3)], [(4, ⟨⟨[(1, 3)], [1], 0, false⟩, 1, true, false⟩)], false⟩
private theorem fd_ok : fd.Ok := by
  refine ⟨by simp [fd, WF, labels], by decide, fun p hp => ?_⟩
  simp only [fd, List.mem_singleton] at hp
  subst hp
  exact ⟨by simp [View.WF, Sizes.WF, labels], rfl, 1, by simp [Entry.dims], by simp [Entry.dims, fd]⟩
private theorem fo_ok : fo.Ok := by
  refine ⟨by simp [fo, WF, labels], by decide, fun p hp => ?_⟩
  simp only [fo, List.mem_singleton] at hp
  subst hp
  exact ⟨by simp [View.WF, Sizes.WF, labels], rfl, 0, by simp [Entry.dims, fo], by simp [Entry.dims]⟩

example : ((SizedDictOp.mergeFrom fo).apply fd).isOk ∧ ((SizedDictOp.sliceCoords ⟨1, 1, -1, 1⟩).apply fo).isOk := by decide
example := C33_dict_flag fo { fo with readonly := false } .copy (by decide)
example := C33_dict_readonly fd rfl 1
example := C33_dict_as_const fd fd_ok
example := C35_merge_from fd fo fd_ok fo_ok
example : fd.mergeFrom fo = .ok { fd with items := fd.items ++ fo.items } ∧ fd.mergeFrom fd = .error .dataArray := by decide

private def fa : DArray := ⟨⟨⟨[(1, 3), (2, 2)], [2, 1], 0, false⟩, 9, true, false⟩, { fd with readonly := false },
  ⟨[(1, 3), (2, 2)], [], false⟩, { fo with sizes := [(2, 2), (1, 3)] }⟩
private theorem fa_ok : fa.Ok := by
  refine ⟨by simp [fa, View.WF, Sizes.WF, labels], ⟨⟨fd_ok.1, fd_ok.2.1, fd_ok.2.2⟩, fun p => Iff.rfl⟩,
    ⟨⟨by simp [fa, WF, labels], by decide, fun p hp => (by simp [fa] at hp)⟩, fun p => Iff.rfl⟩, ⟨⟨by simp [fa, WF, labels], by decide, fun p hp => ?_⟩, fun p => ?_⟩⟩
  · simp only [fa, fo, List.mem_singleton] at hp
    subst hp
    exact ⟨by simp [View.WF, Sizes.WF, labels], rfl, 0, by simp [Entry.dims, fa], by simp [Entry.dims]⟩
  · simp [fa, Entry.dims, or_comm]

example := C35_meta fa fa_ok
example := C35_erase fo fo_ok 4
example : fo.erase 4 = .ok { fo with items := [] } ∧ fo.erase 1 = .error .notFound ∧ fd.erase 1 = .error .dataArray := by decide
private def fs : Dset := ⟨fo, [(3, ⟨⟨⟨[(1, 3)], [1], 0, false⟩, 9, true, false⟩, { fo with items := [] }, { fo with items := [] }⟩),
  (5, ⟨⟨⟨[(1, 3)], [1], 0, false⟩, 8, true, false⟩, { fo with items := [] }, { fo with items := [] }⟩)], false, true⟩
example := C53_erase fs (by decide) 5
example : (fs.erase 5).1.items.map Prod.fst = [3] ∧ (fs.erase 4).2 = some .notFound := by decide
example : fa.meta.isOk := by decide

end Scipp.Props
