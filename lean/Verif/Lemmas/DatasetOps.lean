import Verif.Spec.DatasetOps
import Verif.Lemmas.Dataset
import Verif.Lemmas.BinMeta
import Verif.Props.SizedDict
/-! Lemmas about operations with datasets. -/
namespace Scipp.DatasetOps
open Sizes

/-- Inserting a new item without conflict. -/
theorem setDataArray_new {eq eqn : Entry → Entry → Bool} {d : Dset} (hd : d.Ok) {name : Dim} {a : DArray} (ha : a.Ok) (hn : lookupEntry d.items name = none)
    (hr : d.readonly = false) (hv : d.valid = true) (hs : SameSizes a.data.dims d.coords.sizes) (hc : Agree eqn d.coords.items a.coords.items) :
    d.setDataArray eq eqn name a = (d.inserted name a, none) := by
  have hself : d.selfAssign eq name a = .ok false := by unfold Dset.selfAssign; rw [hn]
  rcases setDataArray_cases (eq := eq) (eqn := eqn) hd name ha with ⟨h, -⟩ | ⟨-, ⟨-, h⟩ | ⟨-, -, -, h⟩⟩
  · rw [hself] at h; cases h
  · exfalso
    rcases h with h | h | h
    · obtain ⟨skip, hk⟩ := coordsToSkip_error.2 (fun p hp cur hcur hal =>
        hc p.1 cur p.2 hcur (lookup_of_mem ha.coords.1.2.1 hp) hal)
      exact h skip hk
    · exact h ((usable_iff d).2 ⟨hr, hv⟩)
    · exact h hs
  · exact h

theorem inserted_lookup {d : Dset} {name : Dim} {a : DArray} (ha : a.Ok) (k : Dim) :
    lookupEntry (d.inserted name a).coords.items k = (lookupEntry d.coords.items k).or (lookupEntry a.coords.items k) := by
  show lookupEntry (addMissing d.coords a.coords.items).items k = _
  rw [lookup_addMissing _ _ _ ha.coords.1.2.1]
  cases lookupEntry d.coords.items k <;> rfl

theorem inserted_items {d : Dset} {name : Dim} {a : DArray} (hn : lookupEntry d.items name = none) :
    (d.inserted name a).items = d.items ++ [(name, itemOf a)] := insert_append (lookup_none.1 hn)

/-- Filling a dataset with items that agree. -/
theorem fill_valid {eq eqn : Entry → Entry → Bool} : ∀ (l : List (Dim × DArray)) {d : Dset}, d.Ok → d.readonly = false → d.valid = true →
    (l.map Prod.fst).Nodup → (∀ p ∈ l, lookupEntry d.items p.1 = none) → (∀ p ∈ l, p.2.Ok) → (∀ p ∈ l, SameSizes p.2.data.dims d.coords.sizes) →
    (∀ p ∈ l, Agree eqn d.coords.items p.2.coords.items) → l.Pairwise (fun p q => Agree eqn p.2.coords.items q.2.coords.items) →
    ∃ r, setItems eq eqn d l = .ok r ∧ fill eq eqn d (l.map fun p => (p.1, .ok p.2)) = .ok r ∧ r.Ok ∧ r.readonly = false ∧ r.valid = true ∧
      r.coords.sizes = d.coords.sizes ∧ r.items = d.items ++ l.map (fun p => (p.1, itemOf p.2)) ∧
      ∀ k, lookupEntry r.coords.items k = (lookupEntry d.coords.items k).or (firstCoord l k)
  | [], d, hd, hr, hv, _, _, _, _, _, _ => ⟨d, rfl, rfl, hd, hr, hv, rfl, by simp, fun k => by simp [firstCoord]⟩
  | (name, a) :: l, d, hd, hr, hv, hn, hi, ho, hs, hc, hp => by
    rw [List.map_cons, List.nodup_cons] at hn
    rw [List.pairwise_cons] at hp
    have ha := ho (name, a) (by simp)
    have h1 := setDataArray_new (eq := eq) hd ha (hi (name, a) (by simp)) hr hv (hs (name, a) (by simp)) (hc (name, a) (by simp))
    have hok := inserted_Ok hd name ha hv (hs (name, a) (by simp))
    obtain ⟨r, k1, k2, k3, k4, k5, k6, k7, k8⟩ := fill_valid (eq := eq) (eqn := eqn) l (d := d.inserted name a) hok hr hv hn.2
      (fun p hp' => by
        show lookupEntry (insertEntry d.items name _) p.1 = none
        rw [lookup_insert, if_neg (fun h : p.1 = name => hn.1 (List.mem_map.2 ⟨p, hp', h⟩))]
        exact hi p (by simp [hp']))
      (fun p hp' => ho p (by simp [hp'])) (fun p hp' => hs p (by simp [hp']))
      (fun p hp' k x y hx hy hal => by
        rw [inserted_lookup ha] at hx
        cases hl : lookupEntry d.coords.items k with
        | some z =>
          rw [hl] at hx
          have hx : z = x := Option.some.inj hx
          subst hx
          exact hc p (by simp [hp']) k _ y hl hy hal
        | none =>
          rw [hl] at hx
          simp only [Option.none_or] at hx
          exact hp.1 p hp' k x y hx hy hal) hp.2
    refine ⟨r, ?_, ?_, k3, k4, k5, k6, ?_, fun k => ?_⟩
    · unfold setItems; rw [h1]; exact k1
    · rw [List.map_cons]; unfold fill
      unfold Dset.setDataArrayInit Dset.initSizes
      rw [if_pos hv]
      dsimp only
      rw [h1]
      exact k2
    · rw [k7, inserted_items (hi (name, a) (by simp))]; simp
    · rw [k8, inserted_lookup ha]
      cases lookupEntry d.coords.items k <;> simp [firstCoord, List.findSome?_cons]
      cases lookupEntry a.coords.items k <;> rfl


/-- Filling an empty dataset with items that agree. -/
theorem fill_new {eq eqn : Entry → Entry → Bool} {l : List (Dim × DArray)} (hl : l ≠ []) (hn : (l.map Prod.fst).Nodup) (ho : ∀ p ∈ l, p.2.Ok)
    (hs : ∀ p ∈ l, ∀ q ∈ l, SameSizes p.2.data.dims q.2.data.dims) (hp : l.Pairwise (fun p q => Agree eqn p.2.coords.items q.2.coords.items)) :
    ∃ r, fill eq eqn invalidDset (l.map fun p => (p.1, .ok p.2)) = .ok r ∧ r.Ok ∧ r.readonly = false ∧ r.valid = true ∧
      (∀ p ∈ l, SameSizes p.2.data.dims r.coords.sizes) ∧ r.items = l.map (fun p => (p.1, itemOf p.2)) ∧
      ∀ k, lookupEntry r.coords.items k = firstCoord l k := by
  cases l with
  | nil => exact absurd rfl hl
  | cons p l =>
    obtain ⟨name, a⟩ := p
    have ha := ho (name, a) (by simp)
    have hok : Dset.Ok ⟨⟨a.data.dims, [], false⟩, [], false, true⟩ :=
      ⟨⟨ha.data.1, List.nodup_nil, fun p hp => nomatch hp⟩, List.nodup_nil, fun p hp => (nomatch hp), fun _ => rfl, fun h => (nomatch h)⟩
    obtain ⟨r, -, k2, k3, k4, k5, k6, k7, k8⟩ := fill_valid (eq := eq) (eqn := eqn) ((name, a) :: l) hok rfl rfl hn (fun _ _ => rfl) ho
      (fun p hp' => hs p hp' (name, a) (by simp)) (fun p _ k x y hx => by simp [lookupEntry] at hx) hp
    refine ⟨r, ?_, k3, k4, k5, fun p hp' => ?_, k7, fun k => ?_⟩
    · rw [List.map_cons] at k2 ⊢
      unfold fill at k2 ⊢
      have e1 : invalidDset.setDataArrayInit eq eqn name a = (⟨⟨a.data.dims, [], false⟩, [], false, true⟩ : Dset).setDataArrayInit eq eqn name a := by
        unfold Dset.setDataArrayInit
        have : invalidDset.initSizes a.data.dims = (⟨⟨a.data.dims, [], false⟩, [], false, true⟩, none) := by
          unfold Dset.initSizes invalidDset SizedDict.setSizes
          simp [Sizes.includes]
        rw [this]; rfl
      rw [e1]; exact k2
    · rw [k6]; exact hs p hp' (name, a) (by simp)
    · rw [k8]; simp [lookupEntry]

theorem agree_self {eqn : Entry → Entry → Bool} (hr : ∀ x, eqn x x = true) (c : List (Dim × Entry)) : Agree eqn c c := fun k x y hx hy _ => by
  rw [hx] at hy; cases hy; exact hr x

theorem firstCoord_same {l : List (Dim × DArray)} {c : List (Dim × Entry)} (hl : l ≠ []) (h : ∀ p ∈ l, p.2.coords.items = c) (k : Dim) :
    firstCoord l k = lookupEntry c k := by
  unfold firstCoord
  cases l with
  | nil => exact absurd rfl hl
  | cons p l =>
    clear hl
    have h1 := h p (by simp)
    rw [List.findSome?_cons, h1]
    cases hc : lookupEntry c k with
    | some e => rfl
    | none =>
      dsimp only
      rw [List.findSome?_eq_none_iff]
      intro q hq
      rw [h q (by simp [hq]), hc]

/-- Filling an empty dataset with the results of an operation that all have the same coords. -/
theorem fill_same {eq eqn : Entry → Entry → Bool} (hr : ∀ x, eqn x x = true) {ns : List Dim} (hn : ns.Nodup) (f : Dim → Except Err DArray) (r : Dim → DArray)
    (hf : ∀ n ∈ ns, f n = .ok (r n)) (ho : ∀ n ∈ ns, (r n).Ok) (hs : ∀ n ∈ ns, ∀ m ∈ ns, SameSizes (r n).data.dims (r m).data.dims)
    {c : List (Dim × Entry)} (hc : ∀ n ∈ ns, (r n).coords.items = c) :
    ∃ d, fill eq eqn invalidDset (ns.map fun n => (n, f n)) = .ok d ∧ (orEmpty d).Ok ∧ (orEmpty d).readonly = false ∧ (orEmpty d).valid = true ∧
      (∀ n ∈ ns, SameSizes (r n).data.dims (orEmpty d).coords.sizes) ∧ (orEmpty d).items = ns.map (fun n => (n, itemOf (r n))) ∧
      (ns ≠ [] → ∀ k, lookupEntry (orEmpty d).coords.items k = lookupEntry c k) ∧
      (ns = [] → (orEmpty d) = ⟨⟨[], [], false⟩, [], false, true⟩) := by
  by_cases hne : ns = []
  · subst hne
    refine ⟨invalidDset, rfl, ?_, rfl, rfl, fun n hn => (nomatch hn), rfl, fun h => absurd rfl h, fun _ => rfl⟩
    exact ⟨⟨⟨List.nodup_nil, fun p hp => nomatch hp⟩, List.nodup_nil, fun p hp => nomatch hp⟩, List.nodup_nil, fun p hp => (nomatch hp), fun _ => rfl,
      fun h => (nomatch h)⟩
  · have e1 : (ns.map fun n => (n, f n)) = (ns.map fun n => (n, r n)).map fun p => (p.1, (.ok p.2 : Except Err DArray)) := by
      rw [List.map_map]
      exact List.map_congr_left fun n hn => by rw [hf n hn]; rfl
    have hne' : (ns.map fun n => (n, r n)) ≠ [] := by simpa using hne
    have hmem : ∀ p ∈ ns.map (fun n => (n, r n)), p.1 ∈ ns ∧ p.2 = r p.1 := by
      intro p hp
      obtain ⟨n, hn, rfl⟩ := List.mem_map.1 hp
      exact ⟨hn, rfl⟩
    obtain ⟨d, k1, k2, k3, k4, k5, k6, k7⟩ := fill_new (eq := eq) (eqn := eqn) (l := ns.map fun n => (n, r n)) hne'
      (by rw [List.map_map]; simpa [Function.comp_def] using hn)
      (fun p hp => (hmem p hp).2 ▸ ho _ (hmem p hp).1)
      (fun p hp q hq => by rw [(hmem p hp).2, (hmem q hq).2]; exact hs _ (hmem p hp).1 _ (hmem q hq).1)
      (List.pairwise_of_forall_mem_list fun p hp q hq => by
        rw [(hmem p hp).2, (hmem q hq).2, hc _ (hmem p hp).1, hc _ (hmem q hq).1]; exact agree_self hr c)
    have hor : orEmpty d = d := by unfold orEmpty; rw [if_pos k4]
    refine ⟨d, e1 ▸ k1, hor.symm ▸ k2, hor.symm ▸ k3, hor.symm ▸ k4, fun n hn => ?_, ?_, fun _ k => ?_, fun h => absurd h hne⟩
    · rw [hor]; exact k5 (n, r n) (List.mem_map.2 ⟨n, hn, rfl⟩)
    · rw [hor, k6, List.map_map]; rfl
    · rw [hor, k7]
      exact firstCoord_same hne' (fun p hp => by rw [(hmem p hp).2]; exact hc _ (hmem p hp).1) k

/-- The first operation that throws ends the loop. -/
theorem fill_error {eq eqn : Entry → Entry → Bool} (hr : ∀ x, eqn x x = true) {ns : List Dim} (hn : ns.Nodup) (f : Dim → Except Err DArray) (r : Dim → DArray)
    (hf : ∀ n ∈ ns, f n = .ok (r n)) (ho : ∀ n ∈ ns, (r n).Ok) (hs : ∀ n ∈ ns, ∀ m ∈ ns, SameSizes (r n).data.dims (r m).data.dims)
    {c : List (Dim × Entry)} (hc : ∀ n ∈ ns, (r n).coords.items = c) {bad : Dim} {err : Err} (hb : f bad = .error err) (rest : List Dim) :
    fill eq eqn invalidDset ((ns ++ bad :: rest).map fun n => (n, f n)) = .error err := by
  obtain ⟨d, h, -⟩ := fill_same (eq := eq) hr hn f r hf ho hs hc
  have : ∀ (l : List (Dim × Except Err DArray)) (d0 : Dset) (m : List (Dim × Except Err DArray)) (d : Dset), fill eq eqn d0 l = .ok d →
      fill eq eqn d0 (l ++ m) = fill eq eqn d m := by
    intro l
    induction l with
    | nil => intro d0 m d h; cases h; rfl
    | cons p l ih =>
      intro d0 m d h
      obtain ⟨n, x⟩ := p
      cases x with
      | error e => cases h
      | ok a =>
        rw [List.cons_append]
        simp only [fill] at h ⊢
        split at h
        · cases h
        · rename_i d' hd'
          exact ih d' m d h
  rw [List.map_append, this _ _ _ _ h, List.map_cons, hb]
  rfl

/-! ### Items as data arrays -/

/-- Coords of an item. -/
def seen (d : Dset) : List (Dim × Entry) :=
  (d.coords.items.filter (itemAppliesTo d.coords.sizes)).map (fun p => (p.1, { p.2 with view := p.2.view.asConst }))

theorem appliesTo_same {s t : Sizes} (h : SameSizes s t) : itemAppliesTo s = itemAppliesTo t := by
  funext p
  have : ∀ x, Sizes.contains s x = Sizes.contains t x := fun x => Bool.eq_iff_iff.2 (by rw [contains_iff, contains_iff]; exact h.labels x)
  unfold itemAppliesTo
  simp only [this]

theorem get_seen {d : Dset} (hd : d.Ok) {n : Dim} {it : DItem} (h : lookupEntry d.items n = some it) :
    d.get n = .ok ⟨it.data, ⟨it.data.dims, seen d, true⟩, it.masks, it.attrs⟩ := by
  rw [get_eq hd h, appliesTo_same (hd.items _ (lookup_mem h)).dims]; rfl

theorem lookup_seen {d : Dset} (hd : d.Ok) (k : Dim) : lookupEntry (seen d) k = visible d k := by
  unfold seen visible
  rw [show lookupEntry _ k = _ from lookup_map_filter (f := fun e => { e with view := e.view.asConst }) hd.coords.2.1 k]
  cases lookupEntry d.coords.items k with
  | none => rfl
  | some e =>
    dsimp only
    have : (itemAppliesTo d.coords.sizes (k, e) = true) ↔ ∀ x ∈ labels e.dims, x ∈ labels d.coords.sizes := by
      unfold itemAppliesTo
      simp only [List.all_eq_true, contains_iff]
    simp only [this]

theorem seen_nodup {d : Dset} (hd : d.Ok) : ((seen d).map Prod.fst).Nodup := by
  unfold seen
  rw [List.map_map]
  exact hd.coords.2.1.sublist (List.Sublist.map _ List.filter_sublist)

theorem seen_readonly {d : Dset} {p : Dim × Entry} (h : p ∈ seen d) : p.2.view.readonly = true := by
  obtain ⟨q, -, rfl⟩ := List.mem_map.1 h
  rfl

theorem mem_names {d : Dset} {n : Dim} : n ∈ names d ↔ ∃ it, lookupEntry d.items n = some it := by
  unfold names
  cases h : lookupEntry d.items n with
  | none => simpa using lookup_none.1 h
  | some it => simpa using ⟨it, lookup_mem h⟩

/-- An item is a well-formed data array. -/
theorem get_of_mem {d : Dset} (hd : d.Ok) {n : Dim} (h : n ∈ names d) :
    ∃ x, d.get n = .ok x ∧ x.Ok ∧ x.coords.items = seen d ∧ SameSizes x.data.dims d.coords.sizes := by
  obtain ⟨it, hit⟩ := mem_names.1 h
  have hf := hd.items _ (lookup_mem hit)
  refine ⟨_, get_seen hd hit, ⟨hf.data, ⟨⟨hf.data.1, seen_nodup hd, fun p hp => ?_⟩, SameSizes.rfl'⟩, hf.masks, hf.attrs⟩, rfl, hf.dims⟩
  obtain ⟨q, hq, rfl⟩ := List.mem_map.1 hp
  obtain ⟨h1, h2, h3⟩ := hd.coords.same hf.dims.symm (List.mem_filter.1 hq).1
  exact ⟨h1, h2, h3⟩

/-! ### The operation for two data arrays -/

theorem arrays_ok {op : BinaryOp} (ho : op.Regular) {x y r : DArray} (hx : x.Ok) (hy : y.Ok) (h : op.arrays x y = .ok r) :
    r.Ok ∧ (∀ p, p ∈ r.data.dims ↔ p ∈ x.data.dims ∨ p ∈ y.data.dims) ∧ union_ op.eqn x.coords.items y.coords.items = .ok r.coords.items := by
  unfold BinaryOp.arrays at h
  cases hc : union_ op.eqn x.coords.items y.coords.items with
  | error e => rw [hc] at h; cases h
  | ok c =>
    cases hm : op.masks x.masks.items y.masks.items with
    | error e => rw [hc, hm] at h; cases h
    | ok m =>
      cases hd : op.data x.data y.data with
      | error e => rw [hc, hm] at h; simp only [bind, Except.bind] at h; rw [hd] at h; cases h
      | ok z =>
        rw [hc, hm] at h
        simp only [bind, Except.bind] at h
        rw [hd] at h
        simp only [makeArray, bind, Except.bind] at h
        obtain ⟨hz, hdims⟩ := ho.data _ _ _ hx.data hy.data hd
        cases h1 : SizedDict.ofItems z.dims c false with
        | error e => rw [h1] at h; cases h
        | ok c' =>
          cases h2 : SizedDict.ofItems z.dims m false with
          | error e => rw [h1, h2] at h; cases h
          | ok m' =>
            cases h3 : SizedDict.ofItems z.dims (intersection_ op.eqn x.attrs.items y.attrs.items) false with
            | error e => rw [h1, h2, h3] at h; cases h
            | ok t =>
              rw [h1, h2, h3] at h
              cases h
              obtain ⟨hcn, hcl⟩ := Props.C36_result op.eqn _ _ _ hx.coords.1.2.1 hy.coords.1.2.1 hc
              have hwf : ∀ p ∈ c, p.2.view.WF := by
                intro p hp
                have hl := hcl p.1
                rw [lookup_of_mem hcn hp] at hl
                have hm : lookupEntry x.coords.items p.1 = some p.2 ∨ lookupEntry y.coords.items p.1 = some p.2 := by
                  cases hx' : lookupEntry x.coords.items p.1 <;> cases hy' : lookupEntry y.coords.items p.1 <;> rw [hx', hy'] at hl <;>
                    simp only [mergedCoord] at hl
                  · cases hl
                  · split at hl
                    · exact .inr hl.symm
                    · cases hl
                  · split at hl
                    · exact .inl hl.symm
                    · cases hl
                  · split at hl
                    · exact .inl hl.symm
                    · split at hl
                      · exact .inr hl.symm
                      · split at hl
                        · exact .inr hl.symm
                        · cases hl
                rcases hm with hm | hm
                · exact (hx.coords.1.2.2 _ (lookup_mem hm)).1
                · exact (hy.coords.1.2.2 _ (lookup_mem hm)).1
              obtain ⟨o1, o2⟩ := ofItems_Ok hz.1 hwf h1
              obtain ⟨o3, o4⟩ := ofItems_Ok hz.1 (ho.masks _ _ _ (fun p hp => (hx.masks.1.2.2 p hp).1) (fun p hp => (hy.masks.1.2.2 p hp).1) hm) h2
              obtain ⟨o5, o6⟩ := ofItems_Ok hz.1 (fun p hp => (hx.attrs.1.2.2 p (List.mem_filter.1 hp).1).1) h3
              refine ⟨⟨hz, ⟨o1, o2 ▸ SameSizes.rfl'⟩, ⟨o3, o4 ▸ SameSizes.rfl'⟩, ⟨o5, o6 ▸ SameSizes.rfl'⟩⟩, hdims, ?_⟩
              show _ = Except.ok c'.items
              rw [BinMeta.ofItems_items hcn h1]

/-- Either all operations succeed or there is a first one that throws. -/
theorem all_or_first {α : Type} (f : Dim → Except Err α) : ∀ (ns : List Dim), (∀ n ∈ ns, ∃ x, f n = .ok x) ∨
    ∃ l1 bad l2 err, ns = l1 ++ bad :: l2 ∧ (∀ n ∈ l1, ∃ x, f n = .ok x) ∧ f bad = .error err
  | [] => .inl fun n hn => nomatch hn
  | n :: ns => by
    cases h : f n with
    | error e => exact .inr ⟨[], n, ns, e, rfl, fun n hn => (nomatch hn), h⟩
    | ok x =>
      rcases all_or_first f ns with k | ⟨l1, bad, l2, err, rfl, k2, k3⟩
      · left
        intro m hm
        rcases List.mem_cons.1 hm with rfl | hm
        · exact ⟨x, h⟩
        · exact k m hm
      · refine .inr ⟨n :: l1, bad, l2, err, rfl, fun m hm => ?_, k3⟩
        rcases List.mem_cons.1 hm with rfl | hm
        · exact ⟨x, h⟩
        · exact k2 m hm

/-! ### The loop -/

theorem loop_ok {eq eqn : Entry → Entry → Bool} (hr : ∀ x, eqn x x = true) {ns : List Dim} (hn : ns.Nodup) (f : Dim → Except Err DArray) {S : Sizes}
    {u : Except Err (List (Dim × Entry))}
    (hf : ∀ n ∈ ns, ∀ r, f n = .ok r → r.Ok ∧ SameSizes r.data.dims S ∧ u = .ok r.coords.items) (r : Dim → DArray) (h : ∀ n ∈ ns, f n = .ok (r n)) :
    ∃ d, fill eq eqn invalidDset (ns.map fun n => (n, f n)) = .ok d ∧ ConsistsOf (orEmpty d) ns r ∧
      (ns = [] → orEmpty d = ⟨⟨[], [], false⟩, [], false, true⟩) := by
  have hc : ∃ c, ∀ n ∈ ns, (r n).coords.items = c := by
    cases hu : u with
    | ok c => exact ⟨c, fun n hn => Except.ok.inj (hu ▸ (hf n hn _ (h n hn)).2.2).symm⟩
    | error e =>
      refine ⟨[], fun n hn => ?_⟩
      have := (hf n hn _ (h n hn)).2.2
      rw [hu] at this; cases this
  obtain ⟨c, hc⟩ := hc
  obtain ⟨d, k1, k2, k3, k4, k5, k6, k7, k8⟩ := fill_same (eq := eq) hr hn f r h (fun n hn => (hf n hn _ (h n hn)).1)
    (fun n hn m hm => (hf n hn _ (h n hn)).2.1.trans (hf m hm _ (h m hm)).2.1.symm) hc
  exact ⟨d, k1, ⟨k2, ⟨k3, k4⟩, k6, k5, fun n hn k => by rw [k7 (List.ne_nil_of_mem hn), hc n hn]⟩, k8⟩

theorem loop_error {eq eqn : Entry → Entry → Bool} (hr : ∀ x, eqn x x = true) {ns rest : List Dim} {bad : Dim} {err : Err} (hn : (ns ++ bad :: rest).Nodup)
    (f : Dim → Except Err DArray) {S : Sizes} {u : Except Err (List (Dim × Entry))}
    (hf : ∀ n ∈ ns ++ bad :: rest, ∀ r, f n = .ok r → r.Ok ∧ SameSizes r.data.dims S ∧ u = .ok r.coords.items) (h : ∀ n ∈ ns, ∃ r, f n = .ok r)
    (hb : f bad = .error err) : fill eq eqn invalidDset ((ns ++ bad :: rest).map fun n => (n, f n)) = .error err := by
  have : ∃ r : Dim → DArray, ∀ n ∈ ns, f n = .ok (r n) := by
    classical
    refine ⟨fun n => if h' : ∃ r, f n = .ok r then h'.choose else ⟨⟨⟨[], [], 0, false⟩, 0, true, false⟩, ⟨[], [], false⟩, ⟨[], [], false⟩, ⟨[], [], false⟩⟩, fun n hn => ?_⟩
    dsimp only
    rw [dif_pos (h n hn)]
    exact (h n hn).choose_spec
  obtain ⟨r, hr'⟩ := this
  have hf' : ∀ n ∈ ns, ∀ r, f n = .ok r → r.Ok ∧ SameSizes r.data.dims S ∧ u = .ok r.coords.items := fun n hn => hf n (List.mem_append_left _ hn)
  have hc : ∃ c, ∀ n ∈ ns, (r n).coords.items = c := by
    cases hu : u with
    | ok c => exact ⟨c, fun n hn => Except.ok.inj (hu ▸ (hf' n hn _ (hr' n hn)).2.2).symm⟩
    | error e =>
      refine ⟨[], fun n hn => ?_⟩
      have := (hf' n hn _ (hr' n hn)).2.2
      rw [hu] at this; cases this
  obtain ⟨c, hc⟩ := hc
  exact fill_error hr (List.nodup_append.1 hn).1 f r hr' (fun n hn => (hf' n hn _ (hr' n hn)).1)
    (fun n hn m hm => (hf' n hn _ (hr' n hn)).2.1.trans (hf' m hm _ (hr' m hm)).2.1.symm) hc hb rest

/-! ### The operation with a variable -/

theorem setSizes_Ok {d c : SizedDict} {s : Sizes} (hd : d.Ok) (hs : WF s) (hl : ∀ p ∈ d.items, ∀ x ∈ labels p.2.dims, x ∈ labels d.sizes)
    (h : d.setSizes s = .ok c) : c.Ok ∧ c.sizes = s ∧ c.items = d.items := by
  unfold SizedDict.setSizes at h
  split at h
  · rename_i hi
    cases h
    have hi := (includes_iff hs.1 hd.1.1).1 hi
    refine ⟨⟨hs, hd.2.1, fun p hp => ?_⟩, rfl, rfl⟩
    obtain ⟨h1, h2, e, h3, h4⟩ := hd.2.2 p hp
    refine ⟨h1, h2, e, fun x n hx hne => hi _ (h3 x n hx hne), fun n hn => ?_⟩
    rcases h4 n hn with k | ⟨m, hm, k⟩ | ⟨k, k2⟩
    · exact .inl (hi _ k)
    · exact .inr (.inl ⟨m, hi _ hm, k⟩)
    · exact absurd (hl p hp e (List.mem_map.2 ⟨_, hn, rfl⟩)) k
  · cases h

theorem makeArrayFrom_ok {z : Entry} {c m t : SizedDict} {r : DArray} {s : Sizes} (hz : z.view.WF) (hc : c.Ok) (hm : m.Ok) (ht : t.Ok)
    (lc : ∀ p ∈ c.items, ∀ x ∈ labels p.2.dims, x ∈ labels s) (lm : ∀ p ∈ m.items, ∀ x ∈ labels p.2.dims, x ∈ labels s)
    (lt : ∀ p ∈ t.items, ∀ x ∈ labels p.2.dims, x ∈ labels s) (sc : SameSizes c.sizes s) (sm : SameSizes m.sizes s) (st : SameSizes t.sizes s)
    (h : makeArrayFrom z c m t = .ok r) : r.Ok ∧ r.data = z ∧ r.coords.items = c.items ∧ r.masks.items = m.items ∧ r.attrs.items = t.items := by
  unfold makeArrayFrom at h
  cases h1 : SizedDict.setSizes { c with readonly := false } z.dims with
  | error e => simp only [h1, bind, Except.bind] at h; cases h
  | ok c' =>
    cases h2 : SizedDict.setSizes { m with readonly := false } z.dims with
    | error e => simp only [h1, h2, bind, Except.bind] at h; cases h
    | ok m' =>
      cases h3 : SizedDict.setSizes { t with readonly := false } z.dims with
      | error e => simp only [h1, h2, h3, bind, Except.bind] at h; cases h
      | ok t' =>
        simp only [h1, h2, h3, bind, Except.bind] at h
        cases h
        obtain ⟨a1, a2, a3⟩ := setSizes_Ok (d := { c with readonly := false }) hc hz.1 (fun p hp x hx => (sc.labels x).2 (lc p hp x hx)) h1
        obtain ⟨b1, b2, b3⟩ := setSizes_Ok (d := { m with readonly := false }) hm hz.1 (fun p hp x hx => (sm.labels x).2 (lm p hp x hx)) h2
        obtain ⟨c1, c2, c3⟩ := setSizes_Ok (d := { t with readonly := false }) ht hz.1 (fun p hp x hx => (st.labels x).2 (lt p hp x hx)) h3
        exact ⟨⟨hz, ⟨a1, a2 ▸ SameSizes.rfl'⟩, ⟨b1, b2 ▸ SameSizes.rfl'⟩, ⟨c1, c2 ▸ SameSizes.rfl'⟩⟩, rfl, a3, b3, c3⟩

theorem copyMasks_Ok {op : BinaryOp} (ho : op.Regular) {m : SizedDict} (hm : m.Ok) : ({ m with items := op.copyMasks m.items } : SizedDict).Ok := by
  obtain ⟨h1, h2⟩ := ho.copyMasks m.items
  refine ⟨hm.1, by rw [h1]; exact hm.2.1, fun p hp => ?_⟩
  obtain ⟨k1, q, hq, k2, k3⟩ := h2 (fun p hp => (hm.2.2 p hp).1) p hp
  obtain ⟨-, j2, j3⟩ := hm.2.2 q hq
  exact ⟨k1, k3.trans j2, k2 ▸ j3⟩

theorem seen_dims {d : Dset} {p : Dim × Entry} (h : p ∈ seen d) : ∀ x ∈ labels p.2.dims, x ∈ labels d.coords.sizes := by
  obtain ⟨q, hq, rfl⟩ := List.mem_map.1 h
  intro x hx
  have := (List.mem_filter.1 hq).2
  unfold itemAppliesTo at this
  rw [List.all_eq_true] at this
  exact contains_iff.1 (this x hx)

/-- Both operations with a variable put the result of the operation on the data into a copy of the item. -/
theorem var_ok {op : BinaryOp} (ho : op.Regular) {d : Dset} (hd : d.Ok) (hown : OwnDims d) {n : Dim} {x r : DArray} {z v : Entry} (hv : v.view.WF)
    (hx : d.get n = .ok x) (hz : op.data x.data v = .ok z ∨ op.data v x.data = .ok z)
    (h : makeArrayFrom z x.coords { x.masks with items := op.copyMasks x.masks.items } x.attrs = .ok r) :
    r.Ok ∧ SameSizes r.data.dims (d.coords.sizes ++ v.dims) ∧ r.coords.items = seen d := by
  unfold Dset.get at hx
  cases hl : lookupEntry d.items n with
  | none => rw [hl] at hx; cases hx
  | some it =>
    have hg := get_seen hd hl
    unfold Dset.get at hg
    rw [hg] at hx
    cases hx
    have hf := hd.items _ (lookup_mem hl)
    have hw := hown _ (lookup_mem hl)
    have hzz : z.view.WF ∧ ∀ p, p ∈ z.dims ↔ p ∈ it.data.dims ∨ p ∈ v.dims := by
      rcases hz with hz | hz
      · exact ho.data _ _ _ hf.data hv hz
      · obtain ⟨k1, k2⟩ := ho.data _ _ _ hv hf.data hz
        exact ⟨k1, fun p => (k2 p).trans or_comm⟩
    obtain ⟨x, hx, hok, hc, hs⟩ := get_of_mem hd (mem_names.2 ⟨it, hl⟩)
    rw [get_seen hd hl] at hx
    cases hx
    obtain ⟨r1, r2, r3, -⟩ := makeArrayFrom_ok (s := d.coords.sizes) hzz.1 hok.coords.1 (copyMasks_Ok ho hok.masks.1) hok.attrs.1
      (fun p hp => seen_dims hp)
      (fun p hp y hy => by
        obtain ⟨-, q, hq, k2, -⟩ := (ho.copyMasks it.masks.items).2 (fun p hp => (hf.masks.1.2.2 p hp).1) p hp
        rw [k2] at hy
        exact hw.1 q hq y hy)
      (fun p hp => hw.2 p hp) hs (hok.masks.2.trans hs) (hok.attrs.2.trans hs) h
    refine ⟨r1, fun p => ?_, r3⟩
    rw [r2, hzz.2, List.mem_append, hf.dims]

/-! ### Merging -/

/-- An item with the coords it sees. -/
def arr (d : Dset) (it : DItem) : DArray := ⟨it.data, ⟨it.data.dims, seen d, true⟩, it.masks, it.attrs⟩

theorem itemArrays_eq {d : Dset} (hd : d.Ok) : ∀ (l : List (Dim × DItem)), (∀ p ∈ l, p ∈ d.items) → itemArrays d l = .ok (l.map fun p => (p.1, arr d p.2))
  | [], _ => rfl
  | p :: l, h => by
    unfold itemArrays
    rw [get_seen hd (lookup_of_mem (e := p.2) hd.names (h p (by simp))), itemArrays_eq hd l (fun q hq => h q (by simp [hq]))]
    rfl

theorem lookup_map_snd {α β : Type} (g : α → β) : ∀ (l : List (Dim × α)) (k : Dim), lookupEntry (l.map fun p => (p.1, g p.2)) k = (lookupEntry l k).map g
  | [], _ => rfl
  | (k', e) :: l, k => by
    rw [List.map_cons]
    unfold lookupEntry
    split
    · rfl
    · exact lookup_map_snd g l k

theorem newItems_eq {eq : Entry → Entry → Bool} {a : List (Dim × DArray)} : ∀ (l : List (Dim × DArray)),
    (∀ p ∈ l, ∀ x, lookupEntry a p.1 = some x → arrayEq eq p.2 x = true) → newItems eq a l = .ok (l.filter fun p => (lookupEntry a p.1).isNone)
  | [], _ => rfl
  | (n, y) :: l, h => by
    have ih := newItems_eq l (fun p hp => h p (by simp [hp]))
    unfold newItems
    cases hl : lookupEntry a n with
    | none => dsimp only; rw [ih]; simp [hl, bind, Except.bind, pure, Except.pure]
    | some x => dsimp only; rw [if_pos (h (n, y) (by simp) x hl), ih]; simp [hl]

theorem newItems_error {eq : Entry → Entry → Bool} {a : List (Dim × DArray)} {n : Dim} {x y : DArray} (hl : lookupEntry a n = some x)
    (hne : arrayEq eq y x = false) (l : List (Dim × DArray)) (hm : (n, y) ∈ l) : newItems eq a l = .error .dataArray := by
  induction l with
  | nil => cases hm
  | cons p l ih =>
    obtain ⟨m, z⟩ := p
    unfold newItems
    rcases List.mem_cons.1 hm with h | h
    · cases h
      rw [hl]
      dsimp only
      rw [hne]; rfl
    · have ih := ih h
      cases hl' : lookupEntry a m with
      | none => dsimp only; rw [ih]; rfl
      | some x' =>
        dsimp only
        split
        · exact ih
        · rfl

theorem setCoords_eq : ∀ (l : List (Dim × Entry)) {d : Dset}, d.readonly = false → d.valid = true → d.coords.readonly = false → WF d.coords.sizes →
    ((d.coords.items ++ l).map Prod.fst).Nodup → (∀ p ∈ l, EntryOk d.coords.sizes p.2) →
    setCoords d l = .ok { d with coords := { d.coords with items := d.coords.items ++ l } }
  | [], d, _, _, _, _, _, _ => by simp [setCoords]
  | (k, e) :: l, d, hr, hv, hc, hs, hn, hk => by
    have hnot : k ∉ d.coords.items.map Prod.fst := by
      rw [List.map_append, List.nodup_append] at hn
      exact fun h => hn.2.2 k h k (by simp) rfl
    have hek := hk (k, e) (by simp)
    obtain ⟨c, hcc⟩ := (insert_iff (key := k) hs hc hek.1).2 ⟨hek.2.1, hek.2.2⟩
    have hc' := (insert_ok hcc).2
    rw [insert_append hnot] at hc'
    have hset : d.setCoord k e = ({ d with coords := c }, none) := by
      unfold Dset.setCoord
      rw [(usable_iff d).2 ⟨hr, hv⟩]
      dsimp only
      unfold SizedDict.set
      rw [lookup_none.2 hnot]
      dsimp only
      rw [hcc]
    unfold setCoords
    rw [hset]
    dsimp only
    subst hc'
    have ih := setCoords_eq l (d := { d with coords := { d.coords with items := d.coords.items ++ [(k, e)] } }) hr hv hc hs
      (by simpa using hn) (fun p hp => hk p (by simp [hp]))
    rw [ih]
    simp

/-- A coord of the union is a coord of one of the operands. -/
theorem merged_mem {eqn : Entry → Entry → Bool} {x y : Option Entry} {e : Entry} (h : mergedCoord eqn x y = some e) : x = some e ∨ y = some e := by
  cases x <;> cases y <;> simp only [mergedCoord] at h
  · cases h
  · split at h
    · exact .inr h
    · cases h
  · split at h
    · exact .inl h
    · cases h
  · split at h
    · exact .inl h
    · split at h
      · exact .inr h
      · split at h
        · exact .inr h
        · cases h

theorem visible_some {d : Dset} {k : Dim} {e : Entry} (h : visible d k = some e) : ∃ x, lookupEntry d.coords.items k = some x ∧
    e = { x with view := x.view.asConst } := by
  unfold visible at h
  split at h
  · cases h
  · rename_i x hx
    split at h
    · exact ⟨x, hx, (Option.some.inj h).symm⟩
    · cases h

theorem seen_ok {d : Dset} (hd : d.Ok) {it : DItem} (h : it.Fits d.coords.sizes) : (arr d it).Ok := by
  refine ⟨h.data, ⟨⟨h.data.1, seen_nodup hd, fun p hp => ?_⟩, SameSizes.rfl'⟩, h.masks, h.attrs⟩
  obtain ⟨q, hq, rfl⟩ := List.mem_map.1 hp
  obtain ⟨h1, h2, h3⟩ := hd.coords.same h.dims.symm (List.mem_filter.1 hq).1
  exact ⟨h1, h2, h3⟩

theorem firstCoord_mem {l : List (Dim × DArray)} {k : Dim} {e : Entry} (h : firstCoord l k = some e) : ∃ p ∈ l, lookupEntry p.2.coords.items k = some e :=
  List.exists_of_findSome?_eq_some h

theorem firstCoord_none {l : List (Dim × DArray)} {k : Dim} : firstCoord l k = none ↔ ∀ p ∈ l, lookupEntry p.2.coords.items k = none :=
  List.findSome?_eq_none_iff

end Scipp.DatasetOps
