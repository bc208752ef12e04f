import Verif.Spec.Dataset
import Verif.Lemmas.SizedDict
import Verif.Lemmas.SizedDict2
import Mathlib.Data.List.Perm.Subperm
/-! Lemmas about datasets. -/
namespace Scipp
open Sizes

theorem SameSizes.rfl' {a : Sizes} : SameSizes a a := fun _ => Iff.rfl
theorem SameSizes.symm {a b : Sizes} (h : SameSizes a b) : SameSizes b a := fun p => (h p).symm
theorem SameSizes.trans {a b c : Sizes} (h : SameSizes a b) (h' : SameSizes b c) : SameSizes a c := fun p => (h p).trans (h' p)

theorem SameSizes.labels {a b : Sizes} (h : SameSizes a b) (x : Dim) : x ∈ Sizes.labels a ↔ x ∈ Sizes.labels b := by
  unfold Sizes.labels
  simp only [List.mem_map]
  exact exists_congr fun p => by rw [h p]

theorem Fits.same {a b : Sizes} {dims : Dims} (h : SameSizes a b) (hf : Fits a dims) : Fits b dims := by
  obtain ⟨e, h1, h2⟩ := hf
  refine ⟨e, fun d n hd hne => (h _).1 (h1 d n hd hne), fun n hn => ?_⟩
  rcases h2 n hn with k | ⟨m, hm, k⟩ | ⟨k, k2⟩
  · exact .inl ((h _).1 k)
  · exact .inr (.inl ⟨m, (h _).1 hm, k⟩)
  · exact .inr (.inr ⟨fun x => k ((h.labels e).2 x), k2⟩)

theorem SizedDict.Ok.same {d : SizedDict} {s : Sizes} (h : d.Ok) (hs : SameSizes d.sizes s) {p : Dim × Entry} (hp : p ∈ d.items) :
    EntryOk s p.2 := by
  obtain ⟨h1, h2, h3⟩ := h.2.2 p hp
  exact ⟨h1, h2, h3.same hs⟩

theorem eqMap_iff {a b : Sizes} (ha : WF a) (hb : WF b) : Sizes.eqMap a b = true ↔ SameSizes a b := by
  unfold Sizes.eqMap
  rw [Bool.and_eq_true, List.all_eq_true, beq_iff_eq]
  constructor
  · rintro ⟨hl, h⟩
    have hsub : a ⊆ b := by
      intro p hp
      have := h p hp
      rw [Bool.and_eq_true, decide_eq_true_eq] at this
      obtain ⟨k1, k2⟩ := this
      rw [at?_of_mem ha.1 hp] at k2
      exact at?_ok_mem k2.symm
    have hna : a.Nodup := List.Nodup.of_map _ ha.1
    have hperm : a.Perm b := (List.subperm_of_subset hna hsub).perm_of_length_le (Nat.le_of_eq hl.symm)
    exact fun p => hperm.mem_iff
  · intro h
    have hna : a.Nodup := List.Nodup.of_map _ ha.1
    have hnb : b.Nodup := List.Nodup.of_map _ hb.1
    have hperm : a.Perm b := (List.perm_ext_iff_of_nodup hna hnb).2 h
    refine ⟨hperm.length_eq, fun p hp => ?_⟩
    have hpb := (h p).1 hp
    rw [at?_of_mem ha.1 hp, at?_of_mem hb.1 hpb, Bool.and_eq_true]
    refine ⟨?_, by simp⟩
    unfold Sizes.contains
    rw [List.any_eq_true]
    exact ⟨p, hpb, by simp⟩


/-! ### Parts of the operations -/

theorem asConst_wf {v : View} (h : v.WF) : v.asConst.WF := h

theorem setCoord_cases (d : Dset) (k : Dim) (e : Entry) :
    (∃ err, d.setCoord k e = (d, some err)) ∨
      ∃ c, d.coords.set k e = .ok c ∧ d.expectUsable = none ∧ d.setCoord k e = ({ d with coords := c }, none) := by
  unfold Dset.setCoord
  cases h1 : d.expectUsable with
  | some err => exact .inl ⟨err, rfl⟩
  | none =>
    cases h2 : d.coords.set k e with
    | error err => exact .inl ⟨err, rfl⟩
    | ok c => exact .inr ⟨c, rfl, rfl, rfl⟩

theorem usable_iff (d : Dset) : d.expectUsable = none ↔ d.readonly = false ∧ d.valid = true := by
  unfold Dset.expectUsable
  cases d.readonly <;> cases d.valid <;> simp

theorem set_flag {d d' : SizedDict} {key : Dim} {e : Entry} (h : d.set key e = .ok d') : d'.sizes = d.sizes ∧ d'.readonly = d.readonly := by
  have hins : ∀ d', d.insert key e = .ok d' → d'.sizes = d.sizes ∧ d'.readonly = d.readonly := by
    intro d' h
    obtain ⟨hr, rfl⟩ := insert_ok h
    exact ⟨rfl, rfl⟩
  unfold SizedDict.set at h
  split at h
  · split at h
    · simp only [Except.ok.injEq] at h; subst h; exact ⟨rfl, rfl⟩
    · exact hins _ h
  · exact hins _ h

/-- Replacing the coords of a valid dataset by other coords with the same sizes. -/
theorem Dset.Ok.withCoords {d : Dset} {c : SizedDict} (hd : d.Ok) (hc : c.Ok) (hs : c.sizes = d.coords.sizes)
    (hr : c.readonly = d.coords.readonly) (hi : d.valid = false → c.items = []) : ({ d with coords := c } : Dset).Ok :=
  ⟨hc, hd.names, fun p hp => by
      show p.2.Fits c.sizes
      rw [hs]; exact hd.items p hp,
    fun h => hr.trans (hd.flag h), fun h => ⟨hs.trans (hd.invalid h).1, hi h, (hd.invalid h).2.2⟩⟩

theorem setCoord_Ok {d : Dset} (hd : d.Ok) (k : Dim) {e : Entry} (hw : e.view.WF) :
    (d.setCoord k e).1.Ok ∧ ((d.setCoord k e).2 ≠ none → (d.setCoord k e).1 = d) := by
  rcases setCoord_cases d k e with ⟨err, h⟩ | ⟨c, h1, h2, h⟩
  · rw [h]; exact ⟨hd, fun _ => rfl⟩
  · rw [h]
    obtain ⟨k1, k2, k3⟩ := set_Ok hd.coords hw h1
    refine ⟨hd.withCoords k1 k2 k3 (fun hv => ?_), fun hn => absurd rfl hn⟩
    rw [((usable_iff d).1 h2).2] at hv; cases hv

theorem newItem_Fits {d : Dset} (hd : d.Ok) {name : Dim} {data : Entry} {keep : Bool} {it : DItem} (hw : data.view.WF)
    (hs : SameSizes data.dims d.coords.sizes) (h : d.newItem name data keep = .ok it) :
    it.Fits d.coords.sizes ∧ it.data = data := by
  have hempty : ∀ ro, (⟨data.dims, [], ro⟩ : SizedDict).Ok := fun ro => ⟨hw.1, List.nodup_nil, fun p hp => nomatch hp⟩
  unfold Dset.newItem at h
  split at h
  · rename_i it0 hl
    have hf := hd.items _ (lookup_mem hl)
    cases h1 : SizedDict.ofItems data.dims it0.masks.items false with
    | error err => simp only [h1] at h; cases h
    | ok m =>
      cases h2 : SizedDict.ofItems data.dims it0.attrs.items false with
      | error err => simp only [h1, h2] at h; cases h
      | ok a =>
        simp only [h1, h2, Except.ok.injEq] at h
        subst h
        obtain ⟨m1, m2⟩ := ofItems_Ok hw.1 (fun p hp => (hf.masks.1.2.2 p hp).1) h1
        obtain ⟨a1, a2⟩ := ofItems_Ok hw.1 (fun p hp => (hf.attrs.1.2.2 p hp).1) h2
        exact ⟨⟨hw, hs, ⟨m1, m2 ▸ SameSizes.rfl'⟩, ⟨a1, a2 ▸ SameSizes.rfl'⟩⟩, rfl⟩
  · simp only [Except.ok.injEq] at h
    subst h
    exact ⟨⟨hw, hs, ⟨hempty _, SameSizes.rfl'⟩, ⟨hempty _, SameSizes.rfl'⟩⟩, rfl⟩

theorem setData_cases (d : Dset) (name : Dim) (data : Entry) (keep : Bool) :
    (∃ err, d.setData name data keep = (d, some err)) ∨
      ∃ it, d.expectUsable = none ∧ Sizes.eqMap d.coords.sizes data.dims = true ∧ d.newItem name data keep = .ok it ∧
        d.setData name data keep = ({ d with items := insertEntry d.items name it }, none) := by
  unfold Dset.setData
  cases h1 : d.expectUsable with
  | some err => exact .inl ⟨err, rfl⟩
  | none =>
    cases h2 : Sizes.eqMap d.coords.sizes data.dims with
    | false => exact .inl ⟨.dimension, rfl⟩
    | true =>
      cases h3 : d.newItem name data keep with
      | error err => exact .inl ⟨err, rfl⟩
      | ok it => exact .inr ⟨it, rfl, rfl, rfl, rfl⟩

theorem withItem_Ok {d : Dset} (hd : d.Ok) (hv : d.valid = true) {name : Dim} {it : DItem} (h : it.Fits d.coords.sizes) :
    ({ d with items := insertEntry d.items name it } : Dset).Ok :=
  ⟨hd.coords, insert_nodup hd.names _ _, fun p hp => by
      rcases mem_insert hp with hp | rfl
      · exact hd.items p hp
      · exact h,
    hd.flag, fun h => by rw [show d.valid = false from h] at hv; cases hv⟩

theorem setData_Ok {d : Dset} (hd : d.Ok) (name : Dim) {data : Entry} (keep : Bool) (hw : data.view.WF) :
    (d.setData name data keep).1.Ok ∧ ((d.setData name data keep).2 ≠ none → (d.setData name data keep).1 = d) := by
  rcases setData_cases d name data keep with ⟨err, h⟩ | ⟨it, h1, h2, h3, h⟩
  · rw [h]; exact ⟨hd, fun _ => rfl⟩
  · rw [h]
    refine ⟨withItem_Ok hd ((usable_iff d).1 h1).2 (newItem_Fits hd hw ?_ h3).1, fun hn => absurd rfl hn⟩
    exact ((eqMap_iff hd.coords.1 hw.1).1 h2).symm

/-! ### Inserting a data array -/

/-- Coords of the dataset after the loop: coords that were there stay, others come from the data array. -/
def addMissing (coords : SizedDict) (new : List (Dim × Entry)) : SizedDict :=
  { coords with items := coords.items ++ new.filter (fun p => (lookupEntry coords.items p.1).isNone) }

theorem lookup_append_one {α : Type} : ∀ (l : List (Dim × α)) (p : Dim × α) (k : Dim), k ≠ p.1 →
    lookupEntry (l ++ [p]) k = lookupEntry l k
  | [], (k0, x), k, h => by
    show (if k0 = k then some x else none) = none
    rw [if_neg (fun e => h e.symm)]
  | (k1, y) :: l, p, k, h => by
    show (if k1 = k then some y else lookupEntry (l ++ [p]) k) = (if k1 = k then some y else lookupEntry l k)
    rw [lookup_append_one l p k h]

/-- The loop does not throw, and adds what is missing. -/
theorem setCoordsOf_eq (skip : List Dim) : ∀ (new : List (Dim × Entry)) (d : Dset), d.expectUsable = none → d.coords.readonly = false →
    WF d.coords.sizes → (new.map Prod.fst).Nodup → (∀ p ∈ new, EntryOk d.coords.sizes p.2) →
    (∀ k ∈ skip, (lookupEntry d.coords.items k).isSome) →
    Dset.setCoordsOf skip d new = ({ d with coords := addMissing d.coords new }, none)
  | [], d, _, _, _, _, _, _ => by simp [Dset.setCoordsOf, addMissing]
  | (k, e) :: rest, d, hu, hr, hs, hn, he, hk => by
    rw [List.map_cons, List.nodup_cons] at hn
    unfold Dset.setCoordsOf
    cases hl : lookupEntry d.coords.items k with
    | some x =>
      dsimp only
      rw [setCoordsOf_eq skip rest d hu hr hs hn.2 (fun p hp => he p (by simp [hp])) hk]
      simp [addMissing, hl]
    | none =>
      have hns : k ∉ skip := fun hm => by have := hk k hm; rw [hl] at this; cases this
      dsimp only
      rw [if_neg hns]
      have hek := he (k, e) (by simp)
      obtain ⟨c, hc⟩ := (insert_iff (key := k) hs hr hek.1).2 ⟨hek.2.1, hek.2.2⟩
      have hc' := (insert_ok hc).2
      rw [insert_append (lookup_none.1 hl)] at hc'
      have hset : d.setCoord k e = ({ d with coords := c }, none) := by
        unfold Dset.setCoord
        rw [hu]
        dsimp only
        unfold SizedDict.set
        rw [hl]
        dsimp only
        rw [hc]
      rw [hset]
      dsimp only
      subst hc'
      have ih := setCoordsOf_eq skip rest { d with coords := { d.coords with items := d.coords.items ++ [(k, e)] } }
        (by rw [usable_iff] at hu ⊢; exact hu) hr hs hn.2 (fun p hp => he p (by simp [hp])) (fun k' hk' => ?_)
      refine Eq.trans ih ?_
      · have : rest.filter (fun p => (lookupEntry (d.coords.items ++ [(k, e)]) p.1).isNone) =
            rest.filter (fun p => (lookupEntry d.coords.items p.1).isNone) := by
          apply List.filter_congr
          intro p hp
          rw [lookup_append_one]
          exact fun h => hn.1 (by rw [← h]; exact List.mem_map_of_mem (f := Prod.fst) hp)
        simp [addMissing, this, hl]
      · show (lookupEntry (d.coords.items ++ [(k, e)]) k').isSome
        rw [lookup_append_one _ _ _ (fun h : k' = k => hns (h ▸ hk'))]
        exact hk k' hk'

theorem coordsToSkip_mem {eqn : Entry → Entry → Bool} {dst : List (Dim × Entry)} : ∀ {new : List (Dim × Entry)} {skip : List Dim},
    coordsToSkip eqn dst new = .ok skip → ∀ k ∈ skip, (lookupEntry dst k).isSome
  | [], skip, h => by
    simp only [coordsToSkip, Except.ok.injEq] at h
    subst h
    exact fun k hk => nomatch hk
  | (k, e) :: rest, skip, h => by
    simp only [coordsToSkip] at h
    cases hl : lookupEntry dst k with
    | none => rw [hl] at h; exact coordsToSkip_mem h
    | some cur =>
      rw [hl] at h
      dsimp only at h
      split at h
      · split at h
        · exact coordsToSkip_mem h
        · cases h
      · cases hr : coordsToSkip eqn dst rest with
        | error err => rw [hr] at h; cases h
        | ok s =>
          rw [hr] at h
          simp only [Except.ok.injEq] at h
          subst h
          intro k' hk'
          split at hk'
          · rcases List.mem_cons.1 hk' with rfl | hk'
            · rw [hl]; rfl
            · exact coordsToSkip_mem hr k' hk'
          · exact coordsToSkip_mem hr k' hk'

/-- `coords_to_skip` throws exactly if there is a coord in both, with the same flag and different values. -/
theorem coordsToSkip_error {eqn : Entry → Entry → Bool} {dst : List (Dim × Entry)} : ∀ {new : List (Dim × Entry)},
    (∃ skip, coordsToSkip eqn dst new = .ok skip) ↔
      ∀ p ∈ new, ∀ cur, lookupEntry dst p.1 = some cur → cur.aligned = p.2.aligned → eqn p.2 cur = true
  | [] => ⟨fun _ p hp => (nomatch hp), fun _ => ⟨[], rfl⟩⟩
  | (k, e) :: rest => by
    have ih := @coordsToSkip_error eqn dst rest
    simp only [coordsToSkip, List.forall_mem_cons]
    rw [← ih]
    cases hl : lookupEntry dst k with
    | none => simp
    | some cur =>
      by_cases ha : cur.aligned = e.aligned
      · simp only [ha, if_true, Option.some.injEq, forall_eq', true_imp_iff]
        cases he : eqn e cur <;> simp
      · simp only [ha, if_false, Option.some.injEq, forall_eq', false_imp_iff, true_and]
        cases hr : coordsToSkip eqn dst rest <;> simp

theorem viewCoords_eq {c : SizedDict} {dims : Dims} (hc : c.Ok) (hd : WF dims) (hs : SameSizes c.sizes dims) :
    viewCoords c dims = .ok ⟨dims, (c.items.filter (itemAppliesTo dims)).map (fun p => (p.1, { p.2 with view := p.2.view.asConst })), true⟩ := by
  unfold viewCoords
  apply ofItems_exists hd
  · rw [List.map_map]
    exact (hc.2.1.sublist (List.Sublist.map _ List.filter_sublist))
  · intro p hp
    rw [List.mem_map] at hp
    obtain ⟨q, hq, rfl⟩ := hp
    obtain ⟨h1, h2, h3⟩ := hc.same hs (List.mem_filter.1 hq).1
    exact ⟨h1, h2, h3⟩

theorem insert_insert {α : Type} : ∀ (l : List (Dim × α)) (k : Dim) (x y : α), insertEntry (insertEntry l k x) k y = insertEntry l k y
  | [], k, x, y => by simp [insertEntry]
  | (k0, z) :: l, k, x, y => by
    by_cases h : k0 = k
    · simp [insertEntry, h]
    · simp [insertEntry, h, insert_insert l k x y]

theorem get_eq {d : Dset} (hd : d.Ok) {name : Dim} {it : DItem} (h : lookupEntry d.items name = some it) :
    d.get name = .ok ⟨it.data, ⟨it.data.dims, (d.coords.items.filter (itemAppliesTo it.data.dims)).map
      (fun p => (p.1, { p.2 with view := p.2.view.asConst })), true⟩, it.masks, it.attrs⟩ := by
  have hf := hd.items _ (lookup_mem h)
  unfold Dset.get
  rw [h]
  dsimp only
  rw [viewCoords_eq hd.coords hf.data.1 hf.dims.symm]

theorem selfAssign_ok {eq : Entry → Entry → Bool} {d : Dset} (hd : d.Ok) (name : Dim) (a : DArray) : ∃ b, d.selfAssign eq name a = .ok b := by
  unfold Dset.selfAssign
  cases h : lookupEntry d.items name with
  | none => exact ⟨false, rfl⟩
  | some it => dsimp only; rw [get_eq hd h]; exact ⟨_, rfl⟩

/-- The dataset after inserting a data array. -/
def Dset.inserted (d : Dset) (name : Dim) (a : DArray) : Dset :=
  { d with coords := addMissing d.coords a.coords.items, items := insertEntry d.items name ⟨a.data, a.masks, a.attrs⟩ }

/-- All cases of `setData(name, DataArray)`. -/
theorem setDataArray_cases {eq eqn : Entry → Entry → Bool} {d : Dset} (hd : d.Ok) (name : Dim) {a : DArray} (ha : a.Ok) :
    (d.selfAssign eq name a = .ok true ∧ d.setDataArray eq eqn name a = (d, none)) ∨
    (d.selfAssign eq name a = .ok false ∧
      (((∃ err, d.setDataArray eq eqn name a = (d, some err)) ∧
          ((∀ skip, coordsToSkip eqn d.coords.items a.coords.items ≠ .ok skip) ∨ d.expectUsable ≠ none ∨
            ¬ SameSizes a.data.dims d.coords.sizes)) ∨
        ((∃ skip, coordsToSkip eqn d.coords.items a.coords.items = .ok skip) ∧ d.expectUsable = none ∧
          SameSizes a.data.dims d.coords.sizes ∧ d.setDataArray eq eqn name a = (d.inserted name a, none)))) := by
  obtain ⟨b, hb⟩ := selfAssign_ok (eq := eq) hd name a
  cases b with
  | true => exact .inl ⟨hb, by unfold Dset.setDataArray; rw [hb]⟩
  | false =>
    refine .inr ⟨hb, ?_⟩
    unfold Dset.setDataArray
    rw [hb]
    dsimp only
    cases hsk : coordsToSkip eqn d.coords.items a.coords.items with
    | error err => exact .inl ⟨⟨err, rfl⟩, .inl (fun s h => by cases h)⟩
    | ok skip =>
      dsimp only
      cases hu : d.expectUsable with
      | some err =>
        have : d.setData name a.data false = (d, some err) := by unfold Dset.setData; rw [hu]
        rw [this]
        exact .inl ⟨⟨err, rfl⟩, .inr (.inl (by simp))⟩
      | none =>
        cases hm : Sizes.eqMap d.coords.sizes a.data.dims with
        | false =>
          have : d.setData name a.data false = (d, some .dimension) := by
            unfold Dset.setData; rw [hu]; dsimp only; rw [if_pos hm]
          rw [this]
          refine .inl ⟨⟨_, rfl⟩, .inr (.inr fun hs => ?_)⟩
          rw [(eqMap_iff hd.coords.1 ha.data.1).2 hs.symm] at hm
          cases hm
        | true =>
          have hsame := ((eqMap_iff hd.coords.1 ha.data.1).1 hm).symm
          have hnew : d.newItem name a.data false = .ok ⟨a.data, ⟨a.data.dims, [], false⟩, ⟨a.data.dims, [], false⟩⟩ := by
            unfold Dset.newItem
            cases lookupEntry d.items name <;> rfl
          have : d.setData name a.data false =
              ({ d with items := insertEntry d.items name ⟨a.data, ⟨a.data.dims, [], false⟩, ⟨a.data.dims, [], false⟩⟩ }, none) := by
            unfold Dset.setData; rw [hu]; dsimp only; rw [if_neg (by rw [hm]; decide), hnew]
          rw [this]
          dsimp only
          rw [setCoordsOf_eq skip a.coords.items { d with items := insertEntry d.items name ⟨a.data, ⟨a.data.dims, [], false⟩, ⟨a.data.dims, [], false⟩⟩ } (by rw [usable_iff] at hu ⊢; exact hu) (hd.flag ((usable_iff d).1 hu).1)
            hd.coords.1 ha.coords.1.2.1 (fun p hp => ha.coords.1.same (ha.coords.2.trans hsame) hp) (coordsToSkip_mem hsk)]
          refine .inr ⟨⟨_, rfl⟩, rfl, hsame, ?_⟩
          unfold Dset.setMeta Dset.inserted
          dsimp only
          rw [lookup_insert, if_pos rfl]
          dsimp only
          rw [insert_insert]

theorem lookup_addMissing (c : SizedDict) (new : List (Dim × Entry)) (k : Dim) (hn : (new.map Prod.fst).Nodup) :
    lookupEntry (addMissing c new).items k = match lookupEntry c.items k with
      | some e => some e
      | none => lookupEntry new k := by
  unfold addMissing
  dsimp only
  have happ : ∀ (l m : List (Dim × Entry)), lookupEntry (l ++ m) k = match lookupEntry l k with
      | some e => some e
      | none => lookupEntry m k := by
    intro l m
    induction l with
    | nil => rfl
    | cons p l ih =>
      obtain ⟨k0, x⟩ := p
      by_cases h : k0 = k
      · simp [lookupEntry, h]
      · simp [lookupEntry, h, ih]
  rw [happ]
  cases h : lookupEntry c.items k with
  | some e => rfl
  | none =>
    dsimp only
    cases h2 : lookupEntry new k with
    | some e =>
      refine lookup_of_mem (hn.sublist (List.Sublist.map _ List.filter_sublist)) (List.mem_filter.2 ⟨lookup_mem h2, ?_⟩)
      dsimp only; rw [h]; rfl
    | none =>
      rw [lookup_none] at h2 ⊢
      intro hm
      obtain ⟨p, hp, rfl⟩ := List.mem_map.1 hm
      exact h2 (List.mem_map_of_mem (f := Prod.fst) (List.mem_filter.1 hp).1)

theorem addMissing_Ok {c : SizedDict} {a : SizedDict} (hc : c.Ok) (ha : a.Ok) (hs : SameSizes a.sizes c.sizes) :
    (addMissing c a.items).Ok := by
  refine ⟨hc.1, ?_, fun p hp => ?_⟩
  · show ((c.items ++ _).map Prod.fst).Nodup
    rw [List.map_append, List.nodup_append]
    refine ⟨hc.2.1, ha.2.1.sublist (List.Sublist.map _ List.filter_sublist), fun x hx y hy hxy => ?_⟩
    subst hxy
    obtain ⟨p, hp, rfl⟩ := List.mem_map.1 hy
    have := (List.mem_filter.1 hp).2
    rw [Option.isNone_iff_eq_none, lookup_none] at this
    exact this hx
  · rcases List.mem_append.1 hp with hp | hp
    · exact hc.2.2 p hp
    · exact ha.same hs (List.mem_filter.1 hp).1

theorem inserted_Ok {d : Dset} (hd : d.Ok) (name : Dim) {a : DArray} (ha : a.Ok) (hv : d.valid = true)
    (hs : SameSizes a.data.dims d.coords.sizes) : (d.inserted name a).Ok := by
  have h1 : ({ d with coords := addMissing d.coords a.coords.items } : Dset).Ok :=
    hd.withCoords (addMissing_Ok hd.coords ha.coords.1 (ha.coords.2.trans hs)) rfl rfl (fun h => by rw [hv] at h; cases h)
  exact withItem_Ok h1 hv ⟨ha.data, hs, ha.masks, ha.attrs⟩

theorem setDataArray_Ok {eq eqn : Entry → Entry → Bool} {d : Dset} (hd : d.Ok) (name : Dim) {a : DArray} (ha : a.Ok) :
    (d.setDataArray eq eqn name a).1.Ok ∧ ((d.setDataArray eq eqn name a).2 ≠ none → (d.setDataArray eq eqn name a).1 = d) := by
  rcases setDataArray_cases (eq := eq) (eqn := eqn) hd name ha with ⟨-, h⟩ | ⟨-, ⟨⟨err, h⟩, -⟩ | ⟨-, hu, hs, h⟩⟩
  · rw [h]; exact ⟨hd, fun _ => rfl⟩
  · rw [h]; exact ⟨hd, fun _ => rfl⟩
  · rw [h]; exact ⟨inserted_Ok hd name ha ((usable_iff d).1 hu).2 hs, fun hn => absurd rfl hn⟩

/-! ### The first item of an empty dataset -/

theorem initSizes_cases {d : Dset} (hd : d.Ok) {dims : Dims} (hw : WF dims) :
    (d.valid = true ∧ d.initSizes dims = (d, none)) ∨
      (d.valid = false ∧ d.initSizes dims = ({ d with coords := { d.coords with sizes := dims }, valid := true }, none) ∧
        ({ d with coords := { d.coords with sizes := dims }, valid := true } : Dset).Ok) := by
  unfold Dset.initSizes
  cases hv : d.valid with
  | true => exact .inl ⟨rfl, rfl⟩
  | false =>
    obtain ⟨h1, h2, h3, -⟩ := hd.invalid hv
    refine .inr ⟨rfl, ?_, ?_⟩
    · unfold SizedDict.setSizes
      rw [h1]; rfl
    · exact ⟨⟨hw, by simp [h2], by simp [h2]⟩, hd.names, by simp [h3], hd.flag, fun h => by cases h⟩

theorem coordsToSkip_err {eqn : Entry → Entry → Bool} {dst : List (Dim × Entry)} : ∀ {new : List (Dim × Entry)} {err : Err},
    coordsToSkip eqn dst new = .error err → err = .dataset
  | [], err, h => by simp only [coordsToSkip] at h; cases h
  | (k, e) :: rest, err, h => by
    simp only [coordsToSkip] at h
    cases hl : lookupEntry dst k with
    | none => rw [hl] at h; exact coordsToSkip_err h
    | some cur =>
      rw [hl] at h
      dsimp only at h
      split at h
      · split at h
        · exact coordsToSkip_err h
        · cases h; rfl
      · cases hr : coordsToSkip eqn dst rest with
        | error err =>
          rw [hr] at h
          simp only [Except.error.injEq] at h
          exact h ▸ coordsToSkip_err hr
        | ok s => rw [hr] at h; cases h

theorem lookup_map_filter {f : Entry → Entry} {P : Dim × Entry → Bool} {l : List (Dim × Entry)} (hn : (l.map Prod.fst).Nodup) (k : Dim) :
    lookupEntry ((l.filter P).map (fun p => (p.1, f p.2))) k =
      match lookupEntry l k with
      | none => none
      | some e => if P (k, e) then some (f e) else none := by
  have hn' : (((l.filter P).map (fun p => (p.1, f p.2))).map Prod.fst).Nodup := by
    rw [List.map_map]
    exact hn.sublist (List.Sublist.map _ List.filter_sublist)
  have hnone : (∀ e, (k, e) ∈ l → P (k, e) = false) → lookupEntry ((l.filter P).map (fun p => (p.1, f p.2))) k = none := by
    intro h
    rw [lookup_none]
    intro hm
    rw [List.map_map] at hm
    obtain ⟨q, hq, hqk⟩ := List.mem_map.1 hm
    obtain ⟨q1, q2⟩ := List.mem_filter.1 hq
    have hqk' : q.1 = k := hqk
    rw [show q = (k, q.2) from by rw [← hqk']] at q1 q2
    rw [h _ q1] at q2
    cases q2
  cases h : lookupEntry l k with
  | none =>
    exact hnone (fun e he => absurd (List.mem_map_of_mem (f := Prod.fst) he) (lookup_none.1 h))
  | some e =>
    dsimp only
    by_cases hp : P (k, e) = true
    · rw [if_pos hp]
      exact lookup_of_mem hn' (List.mem_map.2 ⟨(k, e), List.mem_filter.2 ⟨lookup_mem h, hp⟩, rfl⟩)
    · rw [if_neg hp]
      refine hnone (fun e' he' => ?_)
      have := lookup_of_mem hn he'
      rw [h] at this
      cases this
      simpa using hp

/-- If the coords of an item compare equal to other coords, every coord of the other dictionary is there. -/
theorem coordDictEq_all {eq : Entry → Entry → Bool} {a b : SizedDict} (ha : (a.items.map Prod.fst).Nodup) (hb : (b.items.map Prod.fst).Nodup)
    (h : coordDictEq eq a b = true) {k : Dim} {y : Entry} (hy : lookupEntry b.items k = some y) :
    ∃ x, lookupEntry a.items k = some x ∧ eq x y = true ∧ x.aligned = y.aligned := by
  unfold coordDictEq at h
  rw [Bool.and_eq_true, List.all_eq_true, beq_iff_eq] at h
  obtain ⟨hl, h⟩ := h
  have hsub : a.items.map Prod.fst ⊆ b.items.map Prod.fst := by
    intro k hk
    obtain ⟨p, hp, rfl⟩ := List.mem_map.1 hk
    have := h p hp
    cases hlk : lookupEntry b.items p.1 with
    | none => simp only [hlk] at this; cases this
    | some e => exact List.mem_map.2 ⟨(p.1, e), lookup_mem hlk, rfl⟩
  have hperm : (a.items.map Prod.fst).Perm (b.items.map Prod.fst) :=
    (List.subperm_of_subset ha hsub).perm_of_length_le (by simp [hl])
  have hk : k ∈ a.items.map Prod.fst := hperm.mem_iff.2 (List.mem_map_of_mem (f := Prod.fst) (lookup_mem hy))
  obtain ⟨⟨k', x⟩, hp, rfl⟩ := List.mem_map.1 hk
  have := h _ hp
  dsimp only at this hy
  simp only [hy, Bool.and_eq_true, beq_iff_eq] at this
  exact ⟨x, lookup_of_mem ha hp, this.1, this.2⟩

/-- A data array with a conflicting coord is not what the dataset holds already. -/
theorem selfAssign_conflict {eq eqn : Entry → Entry → Bool} (hc : Comparisons eq eqn) {d : Dset} (hd : d.Ok) (name : Dim) {a : DArray}
    (ha : a.Ok) {k : Dim} (hk : Conflict eqn d a k) : d.selfAssign eq name a = .ok false := by
  obtain ⟨b, hb⟩ := selfAssign_ok (eq := eq) hd name a
  cases b with
  | false => exact hb
  | true =>
    exfalso
    unfold Dset.selfAssign at hb
    cases hl : lookupEntry d.items name with
    | none => rw [hl] at hb; cases hb
    | some it =>
      rw [hl] at hb
      dsimp only at hb
      rw [get_eq hd hl] at hb
      simp only [Except.ok.injEq, Bool.and_eq_true] at hb
      obtain ⟨x, y, h1, h2, h3, h4⟩ := hk
      have hn : ((d.coords.items.filter (itemAppliesTo it.data.dims)).map
          (fun p => (p.1, ({ p.2 with view := p.2.view.asConst } : Entry)))).map Prod.fst |>.Nodup := by
        rw [List.map_map]
        exact hd.coords.2.1.sublist (List.Sublist.map _ List.filter_sublist)
      obtain ⟨x', k1, k2, k3⟩ := coordDictEq_all hn ha.coords.1.2.1 hb.2 h2
      rw [show lookupEntry _ k = _ from lookup_map_filter (f := fun e => { e with view := e.view.asConst }) hd.coords.2.1 k, h1] at k1
      dsimp only at k1
      split at k1
      · simp only [Option.some.injEq] at k1
        subst k1
        have := hc.stronger _ _ k2
        rw [hc.flags, hc.symm, h4] at this
        cases this
      · cases k1

end Scipp
