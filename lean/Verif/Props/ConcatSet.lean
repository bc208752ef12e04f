import Verif.Lemmas.ConcatSet
import Verif.Props.SizesOps
/-!
C87: concatenation of datasets (`lib/dataset/shape.cpp` 131-145).
-/
namespace Scipp.Props
open Scipp Scipp.Concat Scipp.Sizes
variable {V : Type}

private theorem first_lookup {T : Type} {l : List (Dim × T)} {n : Dim} {x : T} (hn : (l.map Prod.fst).Nodup) : lookupEntry l n = some x ↔ (n, x) ∈ l :=
  ⟨lookup_some_mem, lookup_of_nodup hn⟩

private theorem sets_cases [DecidableEq V] {junk : V} {isnan : V → Bool} {dss : List (FSet V)} {dim : Dim} {r : FSet V} (hds : ∀ s ∈ dss, s.Ok)
    (h : concatSets junk isnan dss dim = .ok r) :
    ∃ first rest names, dss = first :: rest ∧ (∀ n, n ∈ names ↔ CommonItem dss n) ∧ names.Sublist (first.items.map Prod.fst) ∧
      ((names = [] ∧ concatCoords junk isnan dss first dim = .ok r) ∨ Built junk isnan dss dim names r) := by
  classical
  cases dss with
  | nil => cases h
  | cons first rest =>
    refine ⟨first, rest, (first.items.map Prod.fst).filter (fun n => decide (CommonItem (first :: rest) n)), rfl, ?_, List.filter_sublist, ?_⟩
    · intro n
      rw [List.mem_filter, decide_eq_true_eq]
      exact ⟨fun hn => hn.2, fun hn => ⟨hn first List.mem_cons_self, hn⟩⟩
    · unfold concatSets at h
      simp only at h
      cases h1 : first.items.foldlM (concatStep junk isnan (first :: rest) dim) ⟨[], [], fun _ => true, [], false⟩ with
      | error e => rw [h1] at h; cases h
      | ok out =>
        rw [h1] at h
        dsimp only at h
        rcases loop_state hds _ [] _ _ (.inl ⟨rfl, rfl, rfl, rfl⟩) h1 with ⟨q1, q2, _, _⟩ | hb
        · rw [q2] at h
          exact .inl ⟨by simpa using q1, h⟩
        · rw [hb.valid, if_pos rfl] at h
          cases h
          exact .inr (by simpa using hb)

/-- **C87** (success): if the datasets have an item in common and the arrays of every common name can be concatenated, then so can the
datasets: the coords, which are concatenated once per item, never conflict. -/
theorem C87_succeeds [DecidableEq V] {junk : V} {isnan : V → Bool} {dss : List (FSet V)} {dim : Dim} (hne : dss ≠ []) (hds : ∀ s ∈ dss, s.Ok)
    (hcommon : ∃ n, CommonItem dss n) (h : ∀ n das, Named n dss das → ∃ a, concatFull junk isnan das dim = .ok a) :
    ∃ r, concatSets junk isnan dss dim = .ok r := by
  classical
  cases dss with
  | nil => exact absurd rfl hne
  | cons first rest =>
    obtain ⟨out, ho⟩ := loop_exists hds h first.items [] ⟨[], [], fun _ => true, [], false⟩ (.inl ⟨rfl, rfl, rfl, rfl⟩)
    refine ⟨out, ?_⟩
    unfold concatSets
    simp only [ho]
    rcases loop_state hds _ [] _ _ (.inl ⟨rfl, rfl, rfl, rfl⟩) ho with ⟨q1, _⟩ | hb
    · obtain ⟨n, hn⟩ := hcommon
      have : n ∈ (first.items.map Prod.fst).filter (fun n => decide (CommonItem (first :: rest) n)) := by
        rw [List.mem_filter, decide_eq_true_eq]
        exact ⟨hn first List.mem_cons_self, hn⟩
      simp only [List.nil_append] at q1
      rw [q1] at this
      cases this
    · rw [hb.valid]; rfl

/-- **C87** (items): the items of the result are those that all datasets have, in the order of the first; each is the concatenation of the
arrays of that name, and all of these have the coords of the result. -/
theorem C87_items [DecidableEq V] {junk : V} {isnan : V → Bool} {dss : List (FSet V)} {dim : Dim} {r : FSet V} (hds : ∀ s ∈ dss, s.Ok)
    (hcommon : ∃ n, CommonItem dss n) (h : concatSets junk isnan dss dim = .ok r) :
    r.valid = true ∧ WF r.sizes ∧ (∀ n, n ∈ r.items.map Prod.fst ↔ CommonItem dss n) ∧
    (∀ s, dss.head? = some s → (r.items.map Prod.fst).Sublist (s.items.map Prod.fst)) ∧
    ∀ n it, lookupEntry r.items n = some it → ∃ das a, Named n dss das ∧ concatFull junk isnan das dim = .ok a ∧
      it.data = a.data ∧ it.masks = a.masks ∧ it.attrs = a.attrs ∧ r.coords = a.coords ∧ SameSizes r.sizes a.data.dims := by
  obtain ⟨first, rest, names, e1, e2, e3, hc⟩ := sets_cases hds h
  rcases hc with ⟨hn, _⟩ | hb
  · obtain ⟨n, hcn⟩ := hcommon
    have := (e2 n).2 hcn
    rw [hn] at this
    cases this
  · refine ⟨hb.valid, hb.wf, fun n => by rw [hb.itemNames]; exact e2 n, ?_, ?_⟩
    · intro s hs
      rw [e1] at hs
      cases hs
      rw [hb.itemNames]
      exact e3
    · intro n it hit
      obtain ⟨das, a, q1, q2, q3, q4⟩ := hb.items _ (lookup_some_mem hit)
      have q3 : it = ⟨a.data, a.masks, a.attrs⟩ := q3
      subst q3
      exact ⟨das, a, q1, q2, rfl, rfl, rfl, Except.ok.inj (hb.coords.symm.trans (item_coords hds q1 q2)), q4⟩

private theorem offset_same {dim : Dim} {l l' : List Dims} (h : List.Forall₂ (fun x y => extentOf x dim = extentOf y dim) l l') (i : Nat) :
    offsetAt l dim i = offsetAt l' dim i := by
  induction h generalizing i with
  | nil => rfl
  | cons h1 _ ih =>
    cases i with
    | zero => rfl
    | succ i =>
      have := ih i
      unfold offsetAt at this ⊢
      simp only [List.take_succ_cons, List.map_cons, List.sum_cons, h1, this]

private theorem lookup_filter {T : Type} {l : List (Dim × T)} {f : Dim × T → Bool} {k : Dim} {x : T} (hn : (l.map Prod.fst).Nodup) :
    lookupEntry (l.filter f) k = some x ↔ lookupEntry l k = some x ∧ f (k, x) = true := by
  rw [first_lookup hn, first_lookup (hn.sublist (List.filter_sublist.map _)), List.mem_filter]

private theorem named_at {n : Dim} {dss : List (FSet V)} {das : List (FArray V)} (h : Named n dss das) (i : Nat) (s : FSet V) (hi : dss[i]? = some s) :
    ∃ a, das[i]? = some a ∧ s.get n = .ok a := by
  induction h generalizing i with
  | nil => simp at hi
  | cons h1 _ ih =>
    cases i with
    | zero => cases hi; exact ⟨_, rfl, h1⟩
    | succ i => exact ih i hi

private theorem named_extents {n dim : Dim} {dss : List (FSet V)} {das : List (FArray V)} (hds : ∀ s ∈ dss, s.Ok) (h : Named n dss das) :
    List.Forall₂ (fun x y => extentOf x dim = extentOf y dim) (das.map (fun a => a.data.dims)) (dss.map FSet.sizes) := by
  induction h with
  | nil => exact .nil
  | cons h1 _ ih =>
    obtain ⟨it, g1, _, rfl⟩ := get_ok h1
    have hs := hds _ List.mem_cons_self
    obtain ⟨a1, a2⟩ := hs.data _ g1
    exact .cons (extentOf_same a1.wf hs.wf a2.symm dim) (ih (fun s hs => hds s (List.mem_cons_of_mem _ hs)))

/-- **C87** (contents): everything in the result is made of the parts of the inputs, at the offsets given by the lengths of the datasets
along `dim`: every coord and, for every item, data, masks and attrs. `SameDependence` as for C43. -/
theorem C87_parts_partial [DecidableEq V] {junk : V} {isnan : V → Bool} {dss : List (FSet V)} {dim : Dim} {r : FSet V} (hds : ∀ s ∈ dss, s.Ok)
    (hdim : dim ≠ Dim.invalid) (hcommon : ∃ n, CommonItem dss n) (hc : ∀ key, SameDependence (dss.map FSet.coordMap) dim key)
    (hm : ∀ n das, Named n dss das → ∀ key, SameDependence (das.map (fun a => a.base.maskMap)) dim key ∧ SameDependence (das.map FArray.attrMap) dim key)
    (h : concatSets junk isnan dss dim = .ok r) :
    (dim, (dss.map (fun s => extentOf s.sizes dim)).sum) ∈ r.sizes ∧
    ∀ (i : Nat) s, dss[i]? = some s →
      (∀ key y, lookupEntry r.coords key = some y → ∃ v, lookupEntry s.coords key = some v ∧
        IsPart y.arr dim (offsetAt (dss.map FSet.sizes) dim i) (partExtent s.sizes v.dims dim) v.arr) ∧
      ∀ n it, lookupEntry r.items n = some it → ∃ src, lookupEntry s.items n = some src ∧
        IsPart it.data.arr dim (offsetAt (dss.map FSet.sizes) dim i) (extentOf s.sizes dim) src.data.arr ∧
        (∀ key y, lookupEntry it.masks key = some y → ∃ v, lookupEntry src.masks key = some v ∧
          IsPart y.arr dim (offsetAt (dss.map FSet.sizes) dim i) (partExtent s.sizes v.dims dim) v.arr) ∧
        (∀ key y, lookupEntry it.attrs key = some y → ∃ v, lookupEntry src.attrs key = some v ∧
          IsPart y.arr dim (offsetAt (dss.map FSet.sizes) dim i) (partExtent s.sizes v.dims dim) v.arr) := by
  obtain ⟨first, rest, names, e1, e2, e3, hcases⟩ := sets_cases hds h
  rcases hcases with ⟨hn, _⟩ | hb
  · obtain ⟨n, hcn⟩ := hcommon
    have := (e2 n).2 hcn
    rw [hn] at this
    cases this
  · have hseenOk : ∀ m ∈ dss.map FSet.seenMap, m.Ok := by
      intro m hm
      obtain ⟨s, hs, rfl⟩ := List.mem_map.1 hm
      exact ⟨(hds s hs).wf, fun p hp => (hds s hs).coords.1 p (List.mem_filter.1 hp).1⟩
    have hdep : ∀ key, SameDependence (dss.map FSet.seenMap) dim key := by
      intro key a x ha hx hl m hm v hv
      obtain ⟨s, hs, rfl⟩ := List.mem_map.1 hm
      rw [List.head?_map] at ha
      cases hh : dss.head? with
      | none => rw [hh] at ha; cases ha
      | some t =>
        rw [hh] at ha
        cases ha
        have ht : t ∈ dss := List.mem_of_head? hh
        exact hc key t.coordMap x (by rw [List.head?_map, hh]; rfl) ((lookup_filter (hds t ht).coords.2).1 hx).1 hl s.coordMap
          (List.mem_map_of_mem (f := FSet.coordMap) hs) v ((lookup_filter (hds s hs).coords.2).1 hv).1
    have hcoords := (concatMaps_spec hseenOk hdim hdep hb.coords).1
    constructor
    · cases hi : r.items with
      | nil => exact absurd (by rw [← hb.itemNames, hi]; rfl) hb.nonempty
      | cons p tail =>
        obtain ⟨das, a, q1, q2, _, q4⟩ := hb.items p (by rw [hi]; exact List.mem_cons_self)
        have h2 := (C43_concat (named_ok hds q1) (concatFull_ok q2).1).2.1
        rw [q4]
        have h3 := named_extents (dim := dim) hds q1
        have : ((das.map FArray.data).map (fun x => extentOf x.dims dim)).sum = (dss.map (fun s => extentOf s.sizes dim)).sum := by
          congr 1
          clear h2 q2 q4 hcoords hdep hseenOk e1 e2 e3 hb hc hm hcommon h
          clear hi
          induction q1 with
          | nil => rfl
          | cons g1 _ ih =>
            cases h3 with
            | cons h31 h32 =>
              simp only [List.map_cons]
              rw [ih (fun s hs => hds s (List.mem_cons_of_mem _ hs)) h32]
              congr 1
        rw [this] at h2
        exact h2
    · intro i s hi
      have hs : s ∈ dss := List.mem_of_getElem? hi
      constructor
      · intro key y hy
        obtain ⟨v, hv, hp⟩ := hcoords key y hy i s.seenMap (by rw [List.getElem?_map, hi]; rfl)
        refine ⟨v, ((lookup_filter (hds s hs).coords.2).1 hv).1, ?_⟩
        rw [List.map_map] at hp
        exact hp
      · intro n it hit
        obtain ⟨das, a, q1, q2, q3, q4⟩ := hb.items _ (lookup_some_mem hit)
        have q3 : it = ⟨a.data, a.masks, a.attrs⟩ := q3
        have q1 : Named n dss das := q1
        subst q3
        obtain ⟨b, hb1, hb2⟩ := named_at q1 i s hi
        obtain ⟨src, g1, g2, g3⟩ := get_ok hb2
        have hso := hds s hs
        obtain ⟨d1, d2⟩ := hso.data _ g1
        have hext : extentOf src.data.dims dim = extentOf s.sizes dim := extentOf_same d1.wf hso.wf d2.symm dim
        have hoff := offset_same (named_extents (dim := dim) hds q1) i
        obtain ⟨f1, _, f3, f4, _⟩ := concatFull_ok q2
        have hda : ∀ x ∈ das, ∃ t ∈ dss, ∃ jt, (n, jt) ∈ t.items ∧ x = t.view jt := by
          intro x hx
          obtain ⟨j, hj⟩ := List.mem_iff_getElem?.1 hx
          have hl := q1.length_eq
          obtain ⟨t, ht⟩ : ∃ t, dss[j]? = some t := by
            have : j < das.length := (List.getElem?_eq_some_iff.1 hj).1
            exact ⟨dss[j]'(by omega), List.getElem?_eq_getElem _⟩
          obtain ⟨x', hx', hg⟩ := named_at q1 j t ht
          rw [hj] at hx'
          cases hx'
          obtain ⟨jt, j1, _, j3⟩ := get_ok hg
          exact ⟨t, List.mem_of_getElem? ht, jt, j1, j3⟩
        have fitsOf : ∀ (t : FSet V) (jt : FItem V) (items : List (Dim × CVar V)), t ∈ dss → (n, jt) ∈ t.items → ItemsOk t.sizes items →
            ∀ p ∈ items, p.2.arr.Ok ∧ Fits jt.data.dims p.2.dims := by
          intro t jt items ht hj hio p hp
          obtain ⟨z1, z2⟩ := hio.1 p hp
          exact ⟨z1, Fits.same ((hds t ht).data _ hj).2 z2⟩
        have hmask := (concatMaps_spec (maps := das.map (fun a => a.base.maskMap)) (by
          intro m hm
          obtain ⟨x, hx, rfl⟩ := List.mem_map.1 hm
          obtain ⟨t, ht, jt, hj, rfl⟩ := hda x hx
          exact ⟨((hds t ht).data _ hj).1.wf, fitsOf t jt _ ht hj ((hds t ht).masks _ hj)⟩) hdim (fun key => (hm n das q1 key).1) f3).1
        have hattr := (concatMaps_spec (maps := das.map FArray.attrMap) (by
          intro m hm
          obtain ⟨x, hx, rfl⟩ := List.mem_map.1 hm
          obtain ⟨t, ht, jt, hj, rfl⟩ := hda x hx
          exact ⟨((hds t ht).data _ hj).1.wf, fitsOf t jt _ ht hj ((hds t ht).attrs _ hj)⟩) hdim (fun key => (hm n das q1 key).2) f4).1
        subst g3
        refine ⟨src, g2, ?_, ?_, ?_⟩
        · have := (C43_concat (named_ok hds q1) f1).2.2.2 i src.data (by rw [List.getElem?_map, hb1]; rfl)
          rw [List.map_map] at this
          rw [← hoff, ← hext]
          exact this
        · intro key y hy
          obtain ⟨v, hv, hp⟩ := hmask key y hy i _ (by rw [List.getElem?_map, hb1]; rfl)
          refine ⟨v, hv, ?_⟩
          rw [List.map_map] at hp
          rw [← hoff]
          unfold partExtent
          rw [← hext]
          exact hp
        · intro key y hy
          obtain ⟨v, hv, hp⟩ := hattr key y hy i _ (by rw [List.getElem?_map, hb1]; rfl)
          refine ⟨v, hv, ?_⟩
          rw [List.map_map] at hp
          rw [← hoff]
          unfold partExtent
          rw [← hext]
          exact hp

/-- **C87** (names of coords): the coords of the result are those of the first dataset that depend on no dim but those of the dataset. -/
theorem C87_coord_names [DecidableEq V] {junk : V} {isnan : V → Bool} {dss : List (FSet V)} {dim : Dim} {r s : FSet V} (hds : ∀ s ∈ dss, s.Ok)
    (hcommon : ∃ n, CommonItem dss n) (hs : dss.head? = some s) (h : concatSets junk isnan dss dim = .ok r) (key : Dim) :
    key ∈ r.coords.map Prod.fst ↔ ∃ v, lookupEntry s.coords key = some v ∧ ∀ d ∈ labels v.dims, d ∈ labels s.sizes := by
  obtain ⟨first, rest, names, e1, e2, e3, hcases⟩ := sets_cases hds h
  rcases hcases with ⟨hn, _⟩ | hb
  · obtain ⟨n, hcn⟩ := hcommon
    have := (e2 n).2 hcn
    rw [hn] at this
    cases this
  · obtain ⟨m, rest', m1, m2⟩ := concatMaps_keys hb.coords
    obtain rfl : first = s := by
      rw [e1] at hs
      exact Option.some.inj hs
    rw [e1] at m1
    simp only [List.map_cons, List.cons.injEq] at m1
    rw [m2, ← m1.1]
    have hnd := (hds first (by rw [e1]; exact List.mem_cons_self)).coords.2
    constructor
    · intro hk
      obtain ⟨p, hp, rfl⟩ := List.mem_map.1 hk
      obtain ⟨p1, p2⟩ := List.mem_filter.1 hp
      refine ⟨p.2, (first_lookup hnd).2 p1, ?_⟩
      intro d hd
      exact contains_iff.1 (List.all_eq_true.1 p2 d hd)
    · rintro ⟨v, hv, hl⟩
      exact List.mem_map.2 ⟨(key, v), List.mem_filter.2 ⟨lookup_some_mem hv, List.all_eq_true.2 fun d hd => contains_iff.2 (hl d hd)⟩, rfl⟩

/-- **C87** (without common items): the result has the coords of all datasets and no items. -/
theorem C87_no_items_partial [DecidableEq V] {junk : V} {isnan : V → Bool} {dss : List (FSet V)} {dim : Dim} {r : FSet V} (hds : ∀ s ∈ dss, s.Ok)
    (hdim : dim ≠ Dim.invalid) (hnone : ∀ n, ¬ CommonItem dss n) (hc : ∀ key, SameDependence (dss.map FSet.coordMap) dim key)
    (h : concatSets junk isnan dss dim = .ok r) :
    r.valid = true ∧ r.items = [] ∧ Sizes.concat (dss.map FSet.sizes) dim = .ok r.sizes ∧ IsItemConcat r.coords (dss.map FSet.coordMap) dim ∧
    ∀ s, dss.head? = some s → r.coords.map Prod.fst = s.coords.map Prod.fst := by
  obtain ⟨first, rest, names, e1, e2, e3, hcases⟩ := sets_cases hds h
  rcases hcases with ⟨_, hcc⟩ | hb
  · unfold concatCoords at hcc
    cases h1 : Sizes.concat (dss.map FSet.sizes) dim with
    | error e => rw [h1] at hcc; cases hcc
    | ok sizes =>
      rw [h1] at hcc; dsimp only at hcc
      cases h2 : concatMaps junk isnan (dss.map FSet.coordMap) dim with
      | error e => rw [h2] at hcc; cases hcc
      | ok coords =>
        rw [h2] at hcc; dsimp only at hcc
        cases h3 : coords.forM (fitCheck sizes) with
        | error e => rw [h3] at hcc; cases hcc
        | ok _ =>
          rw [h3] at hcc
          cases hcc
          obtain ⟨c1, c2⟩ := concatMaps_spec (by
            intro m hm
            obtain ⟨s, hs, rfl⟩ := List.mem_map.1 hm
            exact ⟨(hds s hs).wf, (hds s hs).coords.1⟩) hdim hc h2
          exact ⟨rfl, rfl, rfl, c1, fun s hs => c2 s.coordMap (by rw [List.head?_map, hs]; rfl)⟩
  · cases hn : names with
    | nil => exact absurd hn hb.nonempty
    | cons n l => exact absurd ((e2 n).1 (by rw [hn]; exact List.mem_cons_self)) (hnone n)

/-- Alignment flags of a concatenation without common items: a coord that depends on `dim` in any of the inputs, or differs between inputs, is aligned; a coord
that is the same in all inputs keeps the flag it has in the first one. -/
theorem C87_no_items_flags [DecidableEq V] {junk : V} {isnan : V → Bool} {dss : List (FSet V)} {dim : Dim} {r first : FSet V} (hds : ∀ s ∈ dss, s.Ok)
    (hdim : dim ≠ Dim.invalid) (hnone : ∀ n, ¬ CommonItem dss n) (h : concatSets junk isnan dss dim = .ok r) (hfirst : dss.head? = some first)
    (key : Dim) (x : CVar V) (hx : lookupEntry first.coords key = some x) :
    ((∃ s ∈ dss, ∃ v, lookupEntry s.coords key = some v ∧ (dim ∈ labels v.dims ∨ v.equal elemEqNan x = false)) → r.aligned key = true) ∧
    ((∀ s ∈ dss, ∀ v, lookupEntry s.coords key = some v → dim ∉ labels v.dims ∧ v.equal elemEqNan x = true) → r.aligned key = first.aligned key) := by
  obtain ⟨first', rest, names, e1, e2, e3, hcases⟩ := sets_cases hds h
  obtain rfl : first' = first := by rw [e1] at hfirst; simpa using hfirst
  have hmem : first' ∈ dss := by rw [e1]; exact List.mem_cons_self
  rcases hcases with ⟨_, hcc⟩ | hb
  · have hr : r.aligned = keptFlag dss first' dim := by
      unfold concatCoords at hcc
      split at hcc
      · cases hcc
      · split at hcc
        · cases hcc
        · split at hcc
          · cases hcc
          · cases hcc; rfl
    rw [hr]
    unfold keptFlag
    rw [hx]
    dsimp only
    constructor
    · rintro ⟨s, hs, v, hv, hd⟩
      rw [if_pos]
      right
      rw [List.any_eq_true]
      refine ⟨s, hs, ?_⟩
      rw [hv]
      dsimp only
      rcases hd with hd | hd
      · rw [contains_iff.2 hd]; rfl
      · rw [hd]; simp
    · intro hall
      rw [if_neg]
      rintro (h1 | h1)
      · exact (hall first' hmem x hx).1 (dimOf_mem hdim h1)
      · rw [List.any_eq_true] at h1
        obtain ⟨s, hs, h1⟩ := h1
        cases hv : lookupEntry s.coords key with
        | none => rw [hv] at h1; cases h1
        | some v =>
          rw [hv] at h1
          dsimp only at h1
          obtain ⟨k1, k2⟩ := hall s hs v hv
          rw [k2, Bool.or_eq_true] at h1
          rcases h1 with h1 | h1
          · exact k1 (contains_iff.1 h1)
          · cases h1
  · cases hn : names with
    | nil => exact absurd hn hb.nonempty
    | cons n l => exact absurd ((e2 n).1 (by rw [hn]; exact List.mem_cons_self)) (hnone n)

/-- C87 fails for alignment flags: all coords of the concatenation of data arrays are aligned, whatever the flags of the inputs
(`lib/dataset/shape.cpp` 119-121 sets the flag of every coord that any of the inputs has). -/
theorem C87_wrong_array_flags [DecidableEq V] {junk : V} {isnan : V → Bool} {das : List (FArray V)} {dim : Dim} {a : FArray V}
    (h : concatFull junk isnan das dim = .ok a) : ∀ k ∈ a.coords.map Prod.fst, a.aligned k = true := fun _ hk => concatFull_aligned h hk

/-- C87 fails for alignment flags: the same for datasets. -/
theorem C87_wrong_flags [DecidableEq V] {junk : V} {isnan : V → Bool} {dss : List (FSet V)} {dim : Dim} {r : FSet V} (hds : ∀ s ∈ dss, s.Ok)
    (hcommon : ∃ n, CommonItem dss n) (h : concatSets junk isnan dss dim = .ok r) : ∀ k ∈ r.coords.map Prod.fst, r.aligned k = true := by
  obtain ⟨first, rest, names, e1, e2, e3, hcases⟩ := sets_cases hds h
  rcases hcases with ⟨hn, _⟩ | hb
  · obtain ⟨n, hcn⟩ := hcommon
    have := (e2 n).2 hcn
    rw [hn] at this
    cases this
  · exact hb.aligned

/-! ### Examples and disagreements -/

/-- A dataset of two items (named 1 and 2) with a mask, an attr, bin edges and a scalar coord that is not aligned. -/
def csLeft : FSet Nat :=
  ⟨[(5, 2)], [(5, cVar 5 [0, 1, 2]), (6, cScalar 4)], fun d => decide (d ≠ 6),
    [(1, ⟨cVar 5 [1, 2], [(8, cVar 5 [1, 0])], []⟩), (2, ⟨cVar 5 [3, 4], [], [(9, cVar 5 [7, 7])]⟩)], true⟩

/-- A dataset with the same coords and one more item, in a different order. -/
def csRight : FSet Nat :=
  ⟨[(5, 1)], [(5, cVar 5 [2, 3]), (6, cScalar 4)], fun d => decide (d ≠ 6),
    [(3, ⟨cVar 5 [0], [], []⟩), (2, ⟨cVar 5 [5], [], [(9, cVar 5 [6])]⟩), (1, ⟨cVar 5 [9], [(8, cVar 5 [1])], []⟩)], true⟩

/-- Sizes, and coords with their flags. -/
def csCoords (s : FSet Nat) : List (Dim × Int) × List (Dim × Bool × List Nat) := (s.sizes, s.coords.map (fun p => (p.1, s.aligned p.1, cElems 5 p.2)))

/-- Items with masks followed by attrs. -/
def csItems (s : FSet Nat) : List (Dim × List Nat × List (Dim × List Nat)) :=
  s.items.map (fun p => (p.1, cElems 5 p.2.data, (p.2.masks ++ p.2.attrs).map (fun q => (q.1, cElems 5 q.2))))

/-- Items 1 and 2 are concatenated, item 3 is dropped. The coord 6, not aligned in both inputs, is aligned in the output. -/
theorem C87_wrong_example :
    (concatSets 99 (fun _ => false) [csLeft, csRight] 5).toOption.map csCoords = some ([(5, 3)], [(5, true, [0, 1, 2, 3]), (6, true, [4])]) ∧
    (concatSets 99 (fun _ => false) [csLeft, csRight] 5).toOption.map csItems =
      some [(1, [1, 2, 9], [(8, [1, 0, 1])]), (2, [3, 4, 5], [(9, [7, 7, 6])])] ∧
    csLeft.aligned 6 = false ∧ csRight.aligned 6 = false :=
  ⟨by decide, by decide, by decide, by decide⟩

/-- C87 fails for bin edges along a dim that the dataset does not have (a dataset sliced at a point has such coords): they are lost, since
items of datasets do not have them. A dataset without items keeps them. -/
theorem C87_wrong_edges_lost :
    (concatSets 99 (fun _ => false)
      [⟨[(5, 1)], [(7, cVar 7 [0, 1])], fun _ => true, [(1, ⟨cVar 5 [1], [], []⟩)], true⟩,
        ⟨[(5, 1)], [(7, cVar 7 [0, 1])], fun _ => true, [(1, ⟨cVar 5 [2], [], []⟩)], true⟩] 5).toOption.map csCoords = some ([(5, 2)], []) ∧
    (concatSets 99 (fun _ => false)
      [⟨[(5, 1)], [(7, cVar 7 [0, 1])], fun _ => true, [], true⟩, ⟨[(5, 1)], [(7, cVar 7 [0, 1])], fun _ => true, [], true⟩] 5).toOption.map
      (fun r => r.coords.map (fun p => (p.1, cElems 7 p.2))) = some [(7, [0, 1])] :=
  ⟨by decide, by decide⟩

/-- C87 fails for datasets without items: if the first has length 0 along the dim, an error is raised; with an item of length 0 the
concatenation works. -/
theorem C87_wrong_for_empty :
    (match concatSets 99 (fun _ => false) [⟨[(5, 0)], [(5, cVar 5 [])], fun _ => true, [], true⟩, ⟨[(5, 2)], [(5, cVar 5 [1, 2])], fun _ => true, [], true⟩] 5 with
      | .error e => some e
      | .ok _ => none) = some .slice ∧
    (concatSets 99 (fun _ => false)
      [⟨[(5, 0)], [(5, cVar 5 [])], fun _ => true, [(1, ⟨cVar 5 [], [], []⟩)], true⟩,
        ⟨[(5, 2)], [(5, cVar 5 [1, 2])], fun _ => true, [(1, ⟨cVar 5 [1, 2], [], []⟩)], true⟩] 5).toOption.map csCoords =
      some ([(5, 2)], [(5, true, [1, 2])]) :=
  ⟨by decide, by decide⟩

/-- Flags of coords of datasets without items are kept if the coord is not concatenated. -/
example : (concatSets 99 (fun _ => false)
      [⟨[(5, 1)], [(5, cVar 5 [1]), (6, cScalar 4), (7, cScalar 1)], fun _ => false, [], true⟩,
        ⟨[(5, 2)], [(5, cVar 5 [2, 3]), (6, cScalar 4), (7, cScalar 2)], fun _ => false, [], true⟩] 5).toOption.map csCoords =
      some ([(5, 3)], [(5, true, [1, 2, 3]), (6, false, [4]), (7, true, [1, 2, 2])]) := by
  decide

/-- The hypotheses of `C87_no_items_flags` for such datasets: coord 6 keeps its flag. -/
example : lookupEntry [(5, cVar 5 [1]), (6, cScalar 4), (7, cScalar 1)] 6 = some (cScalar 4) ∧
    (∀ n, ¬ CommonItem [(⟨[(5, 1)], [(5, cVar 5 [1]), (6, cScalar 4), (7, cScalar 1)], fun _ => false, [], true⟩ : FSet Nat),
        ⟨[(5, 2)], [(5, cVar 5 [2, 3]), (6, cScalar 4), (7, cScalar 2)], fun _ => false, [], true⟩] n) ∧
    (cScalar 4).equal elemEqNan (cScalar 4) = true ∧ 5 ∉ labels (cScalar 4).dims := by
  refine ⟨rfl, ?_, by decide, by decide⟩
  intro n h
  exact absurd h (by simp [CommonItem, lookupEntry])

/-- No input. -/
example : concatSets 99 (fun _ => false) ([] : List (FSet Nat)) 5 = .error .invalidArgument := rfl

private theorem csLeft_ok : csLeft.Ok := by
  refine ⟨rfl, by simp [WF, labels, csLeft], ⟨?_, by decide⟩, by decide, ?_, ?_, ?_⟩
  · intro p hp
    simp only [csLeft, List.mem_cons, List.not_mem_nil, or_false] at hp
    rcases hp with rfl | rfl
    · exact ⟨cVar_ok (by decide) _, 5, by simp [cVar, CVar.dims, labels, csLeft]⟩
    · exact ⟨cScalar_ok _, 5, by simp [cScalar, CVar.dims, labels, csLeft]⟩
  · intro p hp
    simp only [csLeft, List.mem_cons, List.not_mem_nil, or_false] at hp
    rcases hp with rfl | rfl <;> exact ⟨cVar_ok (by decide) _, fun _ => Iff.rfl⟩
  · intro p hp
    simp only [csLeft, List.mem_cons, List.not_mem_nil, or_false] at hp
    rcases hp with rfl | rfl
    · refine ⟨?_, by decide⟩
      intro q hq
      rw [List.mem_singleton] at hq
      subst hq
      exact ⟨cVar_ok (by decide) _, 5, by simp [cVar, CVar.dims, labels, csLeft]⟩
    · exact ⟨by simp, by decide⟩
  · intro p hp
    simp only [csLeft, List.mem_cons, List.not_mem_nil, or_false] at hp
    rcases hp with rfl | rfl
    · exact ⟨by simp, by decide⟩
    · refine ⟨?_, by decide⟩
      intro q hq
      rw [List.mem_singleton] at hq
      subst hq
      exact ⟨cVar_ok (by decide) _, 5, by simp [cVar, CVar.dims, labels, csLeft]⟩

private theorem csRight_ok : csRight.Ok := by
  refine ⟨rfl, by simp [WF, labels, csRight], ⟨?_, by decide⟩, by decide, ?_, ?_, ?_⟩
  · intro p hp
    simp only [csRight, List.mem_cons, List.not_mem_nil, or_false] at hp
    rcases hp with rfl | rfl
    · exact ⟨cVar_ok (by decide) _, 5, by simp [cVar, CVar.dims, labels, csRight]⟩
    · exact ⟨cScalar_ok _, 5, by simp [cScalar, CVar.dims, labels, csRight]⟩
  · intro p hp
    simp only [csRight, List.mem_cons, List.not_mem_nil, or_false] at hp
    rcases hp with rfl | rfl | rfl <;> exact ⟨cVar_ok (by decide) _, fun _ => Iff.rfl⟩
  · intro p hp
    simp only [csRight, List.mem_cons, List.not_mem_nil, or_false] at hp
    rcases hp with rfl | rfl | rfl
    · exact ⟨by simp, by decide⟩
    · exact ⟨by simp, by decide⟩
    · refine ⟨?_, by decide⟩
      intro q hq
      rw [List.mem_singleton] at hq
      subst hq
      exact ⟨cVar_ok (by decide) _, 5, by simp [cVar, CVar.dims, labels, csRight]⟩
  · intro p hp
    simp only [csRight, List.mem_cons, List.not_mem_nil, or_false] at hp
    rcases hp with rfl | rfl | rfl
    · exact ⟨by simp, by decide⟩
    · refine ⟨?_, by decide⟩
      intro q hq
      rw [List.mem_singleton] at hq
      subst hq
      exact ⟨cVar_ok (by decide) _, 5, by simp [cVar, CVar.dims, labels, csRight]⟩
    · exact ⟨by simp, by decide⟩

private theorem csBoth : ∀ s ∈ [csLeft, csRight], s.Ok := by
  intro s hs
  simp only [List.mem_cons, List.not_mem_nil, or_false] at hs
  rcases hs with rfl | rfl
  · exact csLeft_ok
  · exact csRight_ok

private theorem csCommon : ∃ n, CommonItem [csLeft, csRight] n := by
  refine ⟨1, ?_⟩
  intro s hs
  simp only [List.mem_cons, List.not_mem_nil, or_false] at hs
  rcases hs with rfl | rfl <;> decide

private theorem csNamed {n : Dim} {das : List (FArray Nat)} (h : Named n [csLeft, csRight] das) :
    (n = 1 ∨ n = 2) ∧ ∃ a b, csLeft.get n = .ok a ∧ csRight.get n = .ok b ∧ das = [a, b] := by
  cases h with
  | cons h1 h2 =>
    cases h2 with
    | cons h3 h4 =>
      cases h4
      refine ⟨?_, _, _, h1, h3, rfl⟩
      obtain ⟨it, hi, _⟩ := get_ok h1
      simp only [csLeft, List.mem_cons, List.not_mem_nil, or_false, Prod.mk.injEq] at hi
      rcases hi with ⟨rfl, _⟩ | ⟨rfl, _⟩
      · exact .inl rfl
      · exact .inr rfl

example : ∃ r, concatSets 99 (fun _ => false) [csLeft, csRight] 5 = .ok r :=
  C87_succeeds (by simp) csBoth csCommon (by
    intro n das h
    obtain ⟨hn, a, b, ha, hb, rfl⟩ := csNamed h
    rcases hn with rfl | rfl
    · cases ha; cases hb; exact ⟨_, rfl⟩
    · cases ha; cases hb; exact ⟨_, rfl⟩)

example (r : FSet Nat) (h : concatSets 99 (fun _ => false) [csLeft, csRight] 5 = .ok r) := C87_items csBoth csCommon h

example (r : FSet Nat) (h : concatSets 99 (fun _ => false) [csLeft, csRight] 5 = .ok r) : (6 : Dim) ∈ r.coords.map Prod.fst :=
  (C87_coord_names csBoth csCommon rfl h 6).2 ⟨cScalar 4, rfl, by decide⟩

example (r : FSet Nat) (h : concatSets 99 (fun _ => false) [csLeft, csRight] 5 = .ok r) :=
  C87_parts_partial csBoth (by decide) csCommon (by
    intro key a x ha hx hl m hm v hv
    cases ha
    have hk : key = 5 := by
      have := lookup_some_mem hx
      simp only [FSet.coordMap, csLeft, List.mem_cons, List.not_mem_nil, or_false, Prod.mk.injEq] at this
      rcases this with ⟨rfl, _⟩ | ⟨rfl, rfl⟩
      · rfl
      · simp [cScalar, CVar.dims, labels] at hl
    subst hk
    simp only [List.map_cons, List.map_nil, List.mem_cons, List.not_mem_nil, or_false] at hm
    rcases hm with rfl | rfl <;> (cases hv; exact .inl (by decide))) (by
    intro n das hd key
    obtain ⟨hn, a, b, ha, hb, rfl⟩ := csNamed hd
    have all : ∀ maps : List (CMap Nat), (∀ m ∈ maps, ∀ p ∈ m.items, (5 : Dim) ∈ labels p.2.dims) → SameDependence maps 5 key :=
      fun maps hmaps a x _ _ _ m hm v hv => .inl (hmaps m hm _ (lookup_some_mem hv))
    rcases hn with rfl | rfl <;> (cases ha; cases hb; constructor) <;> (apply all; intro m hm p hp) <;>
      (simp only [List.map_cons, List.map_nil, List.mem_cons, List.not_mem_nil, or_false] at hm; rcases hm with rfl | rfl) <;>
      first
        | (rw [show p = _ from List.mem_singleton.1 hp]; decide)
        | cases hp) h

/-- Edges with two dims, here 4 and 5: the elements along 5 for the first and second index of 4. -/
private def cEdges (a b : List Nat) : CVar Nat :=
  ⟨⟨[(4, 2), (5, a.length)], fun c => (if c 4 = 0 then a else b).getD (c 5).toNat 0⟩, 0, 0⟩

/-- The elements of such edges. -/
private def cEdgeElems (x : CVar Nat) : List (List Nat) :=
  [0, 1].map fun i => (List.range (extentOf x.dims 5).toNat).map fun k => x.arr.val (upd (upd (fun _ => 0) 4 i) 5 k)

private def cImage (a b : List Nat) : CVar Nat := cEdges a b

/-- Edges with two dims are joined, in coords of a dataset without items, and in coords and attrs of items. -/
theorem C87_joined_edges :
    (concatSets 99 (fun _ => false)
      [⟨[(4, 2), (5, 1)], [(5, cEdges [0, 1] [2, 3])], fun _ => true, [], true⟩,
        ⟨[(4, 2), (5, 1)], [(5, cEdges [1, 7] [3, 9])], fun _ => true, [], true⟩] 5).toOption.map
      (fun r => (r.sizes, r.coords.map (fun p => (p.1, cEdgeElems p.2)))) =
        some ([(4, 2), (5, 2)], [(5, [[0, 1, 7], [2, 3, 9]])]) ∧
    (concatSets 99 (fun _ => false)
      [⟨[(4, 2), (5, 1)], [(5, cEdges [0, 1] [2, 3])], fun _ => true, [(1, ⟨cImage [5] [6], [], [(8, cEdges [0, 1] [2, 3])]⟩)], true⟩,
        ⟨[(4, 2), (5, 1)], [(5, cEdges [1, 7] [3, 9])], fun _ => true, [(1, ⟨cImage [7] [8], [], [(8, cEdges [1, 7] [3, 9])]⟩)], true⟩] 5).toOption.map
      (fun r => (r.coords.map (fun p => (p.1, cEdgeElems p.2)), r.items.map (fun p => (p.1, cEdgeElems p.2.data, p.2.attrs.map (fun q => cEdgeElems q.2))))) =
        some ([(5, [[0, 1, 7], [2, 3, 9]])], [(1, [[5, 7], [6, 8]], [[[0, 1, 7], [2, 3, 9]]])]) :=
  ⟨by decide, rfl⟩

end Scipp.Props
