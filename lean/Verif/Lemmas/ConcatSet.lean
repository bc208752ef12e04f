import Verif.Spec.ConcatSet
import Verif.Lemmas.Concat3
import Verif.Lemmas.DatasetSlice
import Verif.Props.Concat
/-! Lemmas about the concatenation of datasets. -/
namespace Scipp.Concat
open Scipp Scipp.Sizes Scipp.Props
variable {V : Type}

/-! ### Concatenation of coords does not depend on the order of the sizes -/

/-- Same items, and sizes in another order. -/
def MapSame (m m' : CMap V) : Prop := m.items = m'.items ∧ m.dimKeys = m'.dimKeys ∧ WF m.sizes ∧ WF m'.sizes ∧ SameSizes m.sizes m'.sizes

theorem dimOf_same {m m' : CMap V} (h : MapSame m m') (key : Dim) (x : CVar V) : m.dimOf key x = m'.dimOf key x := by
  obtain ⟨_, h2, h3, h4, h5⟩ := h
  have : (fun d => Sizes.isEdges m.sizes x.dims d) = fun d => Sizes.isEdges m'.sizes x.dims d := funext fun d => isEdges_same h3 h4 h5 _ _
  unfold CMap.dimOf
  rw [this, h2]

theorem get_same {m m' : CMap V} (h : MapSame m m') (key : Dim) : m.get key = m'.get key := by
  unfold CMap.get; rw [h.1]

theorem edges_same' {m m' : CMap V} (h : MapSame m m') (dim : Dim) (v : CVar V) : CMap.edges dim (m, v) = CMap.edges dim (m', v) :=
  isEdges_same h.2.2.1 h.2.2.2.1 h.2.2.2.2 _ _

theorem extent_same {m m' : CMap V} (h : MapSame m m') (dim : Dim) : m.extent dim = m'.extent dim := by
  unfold CMap.extent; rw [at?_same h.2.2.1 h.2.2.2.1 h.2.2.2.2]

theorem broadcastAlong_same {m m' : CMap V} (h : MapSame m m') (dim : Dim) (v : CVar V) : broadcastAlong dim (m, v) = broadcastAlong dim (m', v) := by
  unfold broadcastAlong; rw [extent_same h]

theorem mapM_get_same {key : Dim} {maps maps' : List (CMap V)} (h : List.Forall₂ MapSame maps maps') :
    maps.mapM (CMap.get key) = maps'.mapM (CMap.get key) := by
  induction h with
  | nil => rfl
  | cons h1 _ ih => rw [List.mapM_cons, List.mapM_cons, get_same h1, ih]

theorem zip_all_same {dim : Dim} {maps maps' : List (CMap V)} (h : List.Forall₂ MapSame maps maps') (vars : List (CVar V)) :
    (List.zip maps vars).all (CMap.edges dim) = (List.zip maps' vars).all (CMap.edges dim) := by
  induction h generalizing vars with
  | nil => rfl
  | cons h1 _ ih =>
    cases vars with
    | nil => rfl
    | cons v vars => rw [List.zip_cons_cons, List.zip_cons_cons, List.all_cons, List.all_cons, edges_same' h1, ih]

theorem zip_any_same {dim : Dim} {maps maps' : List (CMap V)} (h : List.Forall₂ MapSame maps maps') (vars : List (CVar V)) :
    (List.zip maps vars).any (CMap.edges dim) = (List.zip maps' vars).any (CMap.edges dim) := by
  induction h generalizing vars with
  | nil => rfl
  | cons h1 _ ih =>
    cases vars with
    | nil => rfl
    | cons v vars => rw [List.zip_cons_cons, List.zip_cons_cons, List.any_cons, List.any_cons, edges_same' h1, ih]

theorem zip_mapM_same {dim : Dim} {maps maps' : List (CMap V)} (h : List.Forall₂ MapSame maps maps') (vars : List (CVar V)) :
    (List.zip maps vars).mapM (broadcastAlong dim) = (List.zip maps' vars).mapM (broadcastAlong dim) := by
  induction h generalizing vars with
  | nil => rfl
  | cons h1 _ ih =>
    cases vars with
    | nil => rfl
    | cons v vars => rw [List.zip_cons_cons, List.zip_cons_cons, List.mapM_cons, List.mapM_cons, broadcastAlong_same h1, ih]

theorem concatItem_same [DecidableEq V] {junk : V} {isnan : V → Bool} {maps maps' : List (CMap V)} {a a' : CMap V} (h : List.Forall₂ MapSame maps maps')
    (ha : MapSame a a') (dim key : Dim) (x : CVar V) : concatItem junk isnan maps a dim key x = concatItem junk isnan maps' a' dim key x := by
  unfold concatItem
  rw [mapM_get_same h, dimOf_same ha]
  cases maps'.mapM (CMap.get key) with
  | error e => rfl
  | ok vars =>
    dsimp only
    rw [zip_all_same h, zip_any_same h, zip_mapM_same h]

theorem concatItems_same [DecidableEq V] {junk : V} {isnan : V → Bool} {maps maps' : List (CMap V)} {a a' : CMap V} (h : List.Forall₂ MapSame maps maps')
    (ha : MapSame a a') (dim : Dim) : ∀ l : List (Dim × CVar V), concatItems junk isnan maps a dim l = concatItems junk isnan maps' a' dim l
  | [] => rfl
  | (key, x) :: l => by
    unfold concatItems
    rw [concatItem_same h ha, concatItems_same h ha dim l]

theorem concatMaps_same [DecidableEq V] {junk : V} {isnan : V → Bool} {maps maps' : List (CMap V)} (h : List.Forall₂ MapSame maps maps') (dim : Dim) :
    concatMaps junk isnan maps dim = concatMaps junk isnan maps' dim := by
  cases h with
  | nil => rfl
  | @cons m m' l l' h1 h2 =>
    show concatItems junk isnan (m :: l) m dim m.items = concatItems junk isnan (m' :: l') m' dim m'.items
    rw [concatItems_same (.cons h1 h2) h1, h1.1]

theorem extentOf_same {a b : Dims} (ha : WF a) (hb : WF b) (h : SameSizes a b) (dim : Dim) : extentOf a dim = extentOf b dim := by
  by_cases hd : dim ∈ labels a
  · obtain ⟨n, hn⟩ := mem_of_labels hd
    rw [extentOf_mem ha.1 hn, extentOf_mem hb.1 ((h _).1 hn)]
  · rw [extentOf_not_mem hd, extentOf_not_mem (fun hc => hd ((h.labels dim).2 hc))]

/-- Concatenations of variables with the same sizes have the same sizes. -/
theorem concat_dims_same {junk : V} {dim : Dim} {vars vars' : List (CVar V)} {r r' : CVar V}
    (hv : List.Forall₂ (fun x y : CVar V => x.arr.Ok ∧ y.arr.Ok ∧ SameSizes x.dims y.dims) vars vars')
    (h : concat junk vars dim = .ok r) (h' : concat junk vars' dim = .ok r') : SameSizes r.dims r'.dims := by
  have o1 : ∀ x ∈ vars, x.arr.Ok := by
    clear h h'
    induction hv with
    | nil => simp
    | cons h1 _ ih => intro x hx; rcases List.mem_cons.1 hx with rfl | hx; exacts [h1.1, ih x hx]
  have o2 : ∀ x ∈ vars', x.arr.Ok := by
    clear h h' o1
    induction hv with
    | nil => simp
    | cons h1 _ ih => intro x hx; rcases List.mem_cons.1 hx with rfl | hx; exacts [h1.2.1, ih x hx]
  have es : vars.map (fun x => extentOf x.dims dim) = vars'.map (fun x => extentOf x.dims dim) := by
    clear h h' o1 o2
    induction hv with
    | nil => rfl
    | cons h1 _ ih => rw [List.map_cons, List.map_cons, ih, extentOf_same h1.1.wf h1.2.1.wf h1.2.2]
  have em : ∀ p, (∃ x ∈ vars, p ∈ x.dims) ↔ ∃ x ∈ vars', p ∈ x.dims := by
    clear h h' o1 o2 es
    intro p
    induction hv with
    | nil => simp
    | cons h1 _ ih => simp only [List.mem_cons, exists_eq_or_imp, ih, h1.2.2 p]
  obtain ⟨a1, a2, a3, _⟩ := C43_concat o1 h
  obtain ⟨b1, b2, b3, _⟩ := C43_concat o2 h'
  rw [es] at a2
  rintro ⟨d, n⟩
  by_cases hd : d = dim
  · subst hd
    constructor
    · intro hm
      have e := extentOf_mem a1.wf.1 hm
      rw [extentOf_mem a1.wf.1 a2] at e
      rw [← e]; exact b2
    · intro hm
      have e := extentOf_mem b1.wf.1 hm
      rw [extentOf_mem b1.wf.1 b2] at e
      rw [← e]; exact a2
  · rw [a3 (d, n) hd, b3 (d, n) hd, em]

/-! ### One item -/

/-- The coords of a dataset that its items have. -/
def FSet.seenMap (s : FSet V) : CMap V := ⟨s.sizes, s.coords.filter (appliesTo s.sizes), true⟩

theorem appliesTo_eq {s t : Sizes} (h : SameSizes s t) : (appliesTo s : Dim × CVar V → Bool) = appliesTo t := by
  funext p
  unfold appliesTo
  rw [show (fun x => Sizes.contains s x) = fun x => Sizes.contains t x from funext fun x => contains_same h x]

theorem lookup_some_mem {T : Type} : ∀ {l : List (Dim × T)} {k : Dim} {x : T}, lookupEntry l k = some x → (k, x) ∈ l
  | [], _, _, h => by cases h
  | (j, y) :: l, k, x, h => by
    unfold lookupEntry at h
    by_cases hj : j = k
    · rw [if_pos hj] at h; cases h; subst hj; exact List.mem_cons_self
    · rw [if_neg hj] at h; exact List.mem_cons_of_mem _ (lookup_some_mem h)

theorem lookup_isSome {T : Type} : ∀ {l : List (Dim × T)} {k : Dim}, (lookupEntry l k).isSome = true ↔ k ∈ l.map Prod.fst
  | [], _ => by simp [lookupEntry]
  | (j, y) :: l, k => by
    unfold lookupEntry
    by_cases hj : j = k
    · rw [if_pos hj]; simp [hj]
    · rw [if_neg hj, lookup_isSome (l := l)]
      simp only [List.map_cons, List.mem_cons]
      exact ⟨.inr, fun h => h.resolve_left (fun h => hj h.symm)⟩

theorem get_ok {s : FSet V} {n : Dim} {a : FArray V} (h : s.get n = .ok a) : ∃ it, (n, it) ∈ s.items ∧ lookupEntry s.items n = some it ∧ a = s.view it := by
  unfold FSet.get at h
  cases hl : lookupEntry s.items n with
  | none => rw [hl] at h; cases h
  | some it => rw [hl] at h; exact ⟨it, lookup_some_mem hl, rfl, (Except.ok.inj h).symm⟩

/-- The coords of an item are those of the dataset. -/
theorem get_map_same {s : FSet V} (hs : s.Ok) {n : Dim} {a : FArray V} (h : s.get n = .ok a) : MapSame a.base.coordMap s.seenMap := by
  obtain ⟨it, hm, _, rfl⟩ := get_ok h
  obtain ⟨h1, h2⟩ := hs.data _ hm
  refine ⟨?_, rfl, h1.wf, hs.wf, h2.symm⟩
  show s.coords.filter (appliesTo it.data.dims) = s.coords.filter (appliesTo s.sizes)
  rw [appliesTo_eq h2.symm]

theorem concatFull_ok [DecidableEq V] {junk : V} {isnan : V → Bool} {das : List (FArray V)} {dim : Dim} {a : FArray V}
    (h : concatFull junk isnan das dim = .ok a) :
    concat junk (das.map FArray.data) dim = .ok a.data ∧
    concatMaps junk isnan (das.map (fun d => d.base.coordMap)) dim = .ok a.coords ∧
    concatMaps junk isnan (das.map (fun d => d.base.maskMap)) dim = .ok a.masks ∧
    concatMaps junk isnan (das.map FArray.attrMap) dim = .ok a.attrs ∧
    a.coords.forM (fitCheck a.data.dims) = .ok () ∧
    concatArrays junk isnan (das.map FArray.base) dim = .ok a.base ∧
    a.aligned = fun d => decide (d = dim) || das.any (fun a => hasKey a.coords d) := by
  unfold concatFull at h
  cases h0 : concatArrays junk isnan (das.map FArray.base) dim with
  | error e => rw [h0] at h; cases h
  | ok r =>
    rw [h0] at h; dsimp only at h
    cases h1 : concatMaps junk isnan (das.map FArray.attrMap) dim with
    | error e => rw [h1] at h; cases h
    | ok attrs =>
      rw [h1] at h; dsimp only at h
      cases h2 : attrs.forM (fitCheck r.data.dims) with
      | error e => rw [h2] at h; cases h
      | ok u =>
        rw [h2] at h; dsimp only at h
        cases h
        have h0' := h0
        unfold concatArrays at h0
        rw [List.map_map, List.map_map, List.map_map] at h0
        change (match concat junk (das.map FArray.data) dim with | .error e => _ | .ok data => _) = _ at h0
        cases h3 : concat junk (das.map FArray.data) dim with
        | error e => rw [h3] at h0; cases h0
        | ok data =>
          rw [h3] at h0; dsimp only at h0
          cases h4 : concatMaps junk isnan (das.map (CArray.maskMap ∘ FArray.base)) dim with
          | error e => rw [h4] at h0; cases h0
          | ok masks =>
            rw [h4] at h0; dsimp only at h0
            cases h5 : masks.forM (fitCheck data.dims) with
            | error e => rw [h5] at h0; cases h0
            | ok u' =>
              rw [h5] at h0; dsimp only at h0
              cases h6 : concatMaps junk isnan (das.map (CArray.coordMap ∘ FArray.base)) dim with
              | error e => rw [h6] at h0; cases h0
              | ok coords =>
                rw [h6] at h0; dsimp only at h0
                cases h7 : coords.forM (fitCheck data.dims) with
                | error e => rw [h7] at h0; cases h0
                | ok u'' =>
                  rw [h7] at h0; dsimp only at h0
                  cases h0
                  exact ⟨rfl, h6, h4, rfl, h7, rfl, rfl⟩

theorem concatMaps_keys [DecidableEq V] {junk : V} {isnan : V → Bool} {maps : List (CMap V)} {dim : Dim} {out : List (Dim × CVar V)}
    (h : concatMaps junk isnan maps dim = .ok out) : ∃ m rest, maps = m :: rest ∧ out.map Prod.fst = m.items.map Prod.fst := by
  cases maps with
  | nil => cases h
  | cons m rest => exact ⟨m, rest, rfl, (concatItems_lookup _ _ h).1⟩

/-- All coords of the result are aligned. -/
theorem concatFull_aligned [DecidableEq V] {junk : V} {isnan : V → Bool} {das : List (FArray V)} {dim : Dim} {a : FArray V}
    (h : concatFull junk isnan das dim = .ok a) {k : Dim} (hk : k ∈ a.coords.map Prod.fst) : a.aligned k = true := by
  obtain ⟨_, h2, _, _, _, _, h7⟩ := concatFull_ok h
  obtain ⟨m, rest, e1, e2⟩ := concatMaps_keys h2
  cases das with
  | nil => cases e1
  | cons d das =>
    simp only [List.map_cons, List.cons.injEq] at e1
    rw [e2, ← e1.1] at hk
    rw [h7]
    simp only [List.any_cons]
    have : hasKey d.coords k = true := lookup_isSome.2 hk
    rw [this]; simp

/-! ### Inserting items -/

theorem equal_self [DecidableEq V] (x : CVar V) : x.equal elemEqNan x = true := by
  simp [CVar.equal, elemEqNan]

theorem forM_ok {T : Type} {f : T → Except Err Unit} : ∀ {l : List T}, (∀ p ∈ l, f p = .ok ()) → l.forM f = .ok ()
  | [], _ => rfl
  | p :: l, h => by
    have := forM_ok (f := f) (l := l) (fun q hq => h q (List.mem_cons_of_mem _ hq))
    simp only [List.forM_eq_forM, List.forM_cons, h p List.mem_cons_self, bind, Except.bind] at this ⊢
    exact this

theorem forM_all {T : Type} {f : T → Except Err Unit} : ∀ {l : List T}, l.forM f = .ok () → ∀ p ∈ l, f p = .ok ()
  | [], _, p, hp => by cases hp
  | q :: l, h, p, hp => by
    simp only [List.forM_eq_forM, List.forM_cons, bind, Except.bind] at h
    cases hq : f q with
    | error e => rw [hq] at h; cases h
    | ok u =>
      rw [hq] at h
      rcases List.mem_cons.1 hp with rfl | hp
      · exact hq
      · exact forM_all (by simpa only [List.forM_eq_forM] using h) p hp

theorem lookup_of_nodup {T : Type} : ∀ {l : List (Dim × T)} {k : Dim} {x : T}, (l.map Prod.fst).Nodup → (k, x) ∈ l → lookupEntry l k = some x
  | [], _, _, _, h => by cases h
  | (j, y) :: l, k, x, hn, h => by
    rw [List.map_cons, List.nodup_cons] at hn
    unfold lookupEntry
    rcases List.mem_cons.1 h with h | h
    · cases h; rw [if_pos rfl]
    · rw [if_neg (fun hj => hn.1 (by subst hj; exact List.mem_map.2 ⟨(j, x), h, rfl⟩))]
      exact lookup_of_nodup hn.2 h

theorem lookup_none_iff {T : Type} {l : List (Dim × T)} {k : Dim} : lookupEntry l k = none ↔ k ∉ l.map Prod.fst := by
  rw [← lookup_isSome]
  cases lookupEntry l k <;> simp

/-- All coords are there already. -/
theorem addCoord_present {a : FArray V} {s : FSet V} : ∀ (l : List (Dim × CVar V)), (∀ p ∈ l, p.1 ∈ s.coords.map Prod.fst) →
    l.foldlM (addCoord a) s = .ok s
  | [], _ => rfl
  | p :: l, h => by
    rw [List.foldlM_cons]
    have : addCoord a s p = .ok s := by
      unfold addCoord
      obtain ⟨x, hx⟩ := Option.isSome_iff_exists.1 (lookup_isSome.2 (h p List.mem_cons_self))
      rw [hx]
    rw [this]
    exact addCoord_present l (fun q hq => h q (List.mem_cons_of_mem _ hq))

/-- None of the coords is there. -/
theorem addCoord_new {a : FArray V} : ∀ (l : List (Dim × CVar V)) (s : FSet V), (∀ p ∈ l, fitCheck s.sizes p = .ok ()) →
    (∀ p ∈ l, p.1 ∉ s.coords.map Prod.fst) → (l.map Prod.fst).Nodup →
    ∃ s', l.foldlM (addCoord a) s = .ok s' ∧ s'.sizes = s.sizes ∧ s'.items = s.items ∧ s'.valid = s.valid ∧ s'.coords = s.coords ++ l ∧
      ∀ d, s'.aligned d = if d ∈ l.map Prod.fst then a.aligned d else s.aligned d
  | [], s, _, _, _ => ⟨s, rfl, rfl, rfl, rfl, by simp, fun d => by simp⟩
  | p :: l, s, hf, hk, hn => by
    rw [List.map_cons, List.nodup_cons] at hn
    rw [List.foldlM_cons]
    have e : addCoord a s p = .ok { s with coords := s.coords ++ [p], aligned := fun d => if d = p.1 then a.aligned d else s.aligned d } := by
      unfold addCoord
      rw [lookup_none_iff.2 (hk p List.mem_cons_self)]
      dsimp only
      rw [hf p List.mem_cons_self]
    rw [e]
    obtain ⟨s', g1, g2, g3, g4, g5, g6⟩ := addCoord_new (a := a) l
      { s with coords := s.coords ++ [p], aligned := fun d => if d = p.1 then a.aligned d else s.aligned d }
      (fun q hq => hf q (List.mem_cons_of_mem _ hq)) (by
        intro q hq
        simp only [List.map_append, List.map_cons, List.map_nil, List.mem_append, List.mem_singleton, not_or]
        exact ⟨hk q (List.mem_cons_of_mem _ hq), fun hc => hn.1 (hc ▸ List.mem_map_of_mem hq)⟩) hn.2
    refine ⟨s', g1, g2, g3, g4, by rw [g5, List.append_assoc]; rfl, fun d => ?_⟩
    rw [g6 d]
    simp only [List.map_cons, List.mem_cons]
    by_cases h1 : d ∈ l.map Prod.fst
    · rw [if_pos h1, if_pos (.inr h1)]
    · rw [if_neg h1]
      by_cases h2 : d = p.1
      · rw [if_pos h2, if_pos (.inl h2)]
      · rw [if_neg h2, if_neg (not_or.2 ⟨h2, h1⟩)]

/-- The first item. -/
theorem setArrayInit_first [DecidableEq V] {s : FSet V} {n : Dim} {a : FArray V} (hv : s.valid = false) (hc : s.coords = []) (hi : s.items = [])
    (hw : WF a.data.dims) (hf : a.coords.forM (fitCheck a.data.dims) = .ok ()) (hn : (a.coords.map Prod.fst).Nodup) :
    ∃ s', s.setArrayInit n a = .ok s' ∧ s'.valid = true ∧ s'.sizes = a.data.dims ∧ s'.coords = a.coords ∧
      s'.items = [(n, ⟨a.data, a.masks, a.attrs⟩)] ∧ ∀ k ∈ a.coords.map Prod.fst, s'.aligned k = a.aligned k := by
  unfold FSet.setArrayInit
  rw [hv]
  simp only [Bool.false_eq_true, if_false]
  unfold FSet.setArray
  rw [show conflictCheck { s with sizes := a.data.dims, valid := true } a = .ok () from by
    unfold conflictCheck
    refine forM_ok fun p _ => ?_
    show (match lookupEntry s.coords p.1 with | none => _ | some x => _) = _
    rw [hc]; rfl]
  dsimp only
  rw [(eqMap_iff hw hw).2 SameSizes.rfl']
  simp only [Bool.true_eq_false, if_false]
  obtain ⟨s', g1, g2, g3, g4, g5, g6⟩ := addCoord_new (a := a) a.coords { s with sizes := a.data.dims, valid := true }
    (forM_all hf) (by intro p _; show p.1 ∉ s.coords.map Prod.fst; rw [hc]; simp) hn
  rw [g1]
  refine ⟨_, rfl, g4, g2, ?_, ?_, fun k hk => ?_⟩
  · rw [g5]; show s.coords ++ _ = _; rw [hc]; rfl
  · show s'.items ++ _ = _
    rw [g3]; show s.items ++ _ = _; rw [hi]; rfl
  · show s'.aligned k = _
    rw [g6, if_pos hk]

/-- Another item with the same coords. -/
theorem setArrayInit_next [DecidableEq V] {s : FSet V} {n : Dim} {a : FArray V} (hv : s.valid = true) (hc : s.coords = a.coords)
    (hs : WF s.sizes) (hw : WF a.data.dims) (hss : SameSizes s.sizes a.data.dims) (hn : (a.coords.map Prod.fst).Nodup) :
    s.setArrayInit n a = .ok { s with items := s.items ++ [(n, ⟨a.data, a.masks, a.attrs⟩)] } := by
  unfold FSet.setArrayInit
  rw [hv]
  simp only [if_true]
  unfold FSet.setArray
  rw [show conflictCheck s a = .ok () from by
    unfold conflictCheck
    refine forM_ok fun p hp => ?_
    rw [hc, lookup_of_nodup hn hp]
    dsimp only
    rw [equal_self]
    simp]
  dsimp only
  rw [(eqMap_iff hs hw).2 hss]
  simp only [Bool.true_eq_false, if_false]
  rw [addCoord_present a.coords (by intro p hp; rw [hc]; exact List.mem_map_of_mem hp)]
  simp only [hv]

/-! ### The loop over items -/

theorem mapM_named {n : Dim} : ∀ {dss : List (FSet V)} {das : List (FArray V)}, dss.mapM (FSet.get n) = .ok das ↔ Named n dss das
  | [], das => by
    constructor
    · intro h; cases h; exact .nil
    · intro h; cases h; rfl
  | s :: dss, das => by
    rw [List.mapM_cons]
    simp only [bind, Except.bind]
    constructor
    · intro h
      cases h1 : s.get n with
      | error e => rw [h1] at h; cases h
      | ok a =>
        rw [h1] at h
        cases h2 : dss.mapM (FSet.get n) with
        | error e => rw [h2] at h; cases h
        | ok as => rw [h2] at h; cases h; exact .cons h1 (mapM_named.1 h2)
    · intro h
      cases h with
      | cons h1 h2 => rw [h1]; dsimp only; rw [mapM_named.2 h2]; rfl

theorem common_iff {n : Dim} {dss : List (FSet V)} : dss.all (fun s => hasKey s.items n) = true ↔ CommonItem dss n := by
  rw [List.all_eq_true]
  exact ⟨fun h s hs => lookup_isSome.1 (h s hs), fun h s hs => lookup_isSome.2 (h s hs)⟩

theorem named_exists {n : Dim} : ∀ {dss : List (FSet V)}, CommonItem dss n → ∃ das, Named n dss das
  | [], _ => ⟨[], .nil⟩
  | s :: dss, h => by
    obtain ⟨das, hd⟩ := named_exists (dss := dss) (fun t ht => h t (List.mem_cons_of_mem _ ht))
    obtain ⟨it, hit⟩ := Option.isSome_iff_exists.1 (lookup_isSome.2 (h s List.mem_cons_self))
    exact ⟨_ :: das, .cons (by unfold FSet.get; rw [hit]) hd⟩

theorem named_maps {n : Dim} {dss : List (FSet V)} {das : List (FArray V)} (hds : ∀ s ∈ dss, s.Ok) (h : Named n dss das) :
    List.Forall₂ MapSame (das.map (fun d => d.base.coordMap)) (dss.map FSet.seenMap) := by
  induction h with
  | nil => exact .nil
  | cons h1 _ ih => exact .cons (get_map_same (hds _ List.mem_cons_self) h1) (ih (fun s hs => hds s (List.mem_cons_of_mem _ hs)))

theorem named_data {n n' : Dim} {dss : List (FSet V)} {das das' : List (FArray V)} (hds : ∀ s ∈ dss, s.Ok) (h : Named n dss das) (h' : Named n' dss das') :
    List.Forall₂ (fun x y : CVar V => x.arr.Ok ∧ y.arr.Ok ∧ SameSizes x.dims y.dims) (das.map FArray.data) (das'.map FArray.data) := by
  induction h generalizing das' with
  | nil => cases h'; exact .nil
  | @cons s a dss das h1 _ ih =>
    cases h' with
    | @cons _ a' _ das' h1' h2' =>
      obtain ⟨it, g1, _, rfl⟩ := get_ok h1
      obtain ⟨it', g2, _, rfl⟩ := get_ok h1'
      obtain ⟨a1, a2⟩ := (hds s List.mem_cons_self).data _ g1
      obtain ⟨b1, b2⟩ := (hds s List.mem_cons_self).data _ g2
      exact .cons ⟨a1, b1, a2.symm.trans b2⟩ (ih (fun s hs => hds s (List.mem_cons_of_mem _ hs)) h2')

theorem named_ok {n : Dim} {dss : List (FSet V)} {das : List (FArray V)} (hds : ∀ s ∈ dss, s.Ok) (h : Named n dss das) :
    ∀ x ∈ das.map FArray.data, x.arr.Ok := by
  induction h with
  | nil => simp
  | cons h1 _ ih =>
    intro x hx
    rcases List.mem_cons.1 hx with rfl | hx
    · obtain ⟨it, g1, _, rfl⟩ := get_ok h1
      exact ((hds _ List.mem_cons_self).data _ g1).1
    · exact ih (fun s hs => hds s (List.mem_cons_of_mem _ hs)) x hx

/-- The coords of every item are concatenated to the same coords. -/
theorem item_coords [DecidableEq V] {junk : V} {isnan : V → Bool} {n dim : Dim} {dss : List (FSet V)} {das : List (FArray V)} {a : FArray V}
    (hds : ∀ s ∈ dss, s.Ok) (h : Named n dss das) (hc : concatFull junk isnan das dim = .ok a) :
    concatMaps junk isnan (dss.map FSet.seenMap) dim = .ok a.coords := by
  rw [← concatMaps_same (named_maps hds h)]
  exact (concatFull_ok hc).2.1

theorem seen_keys [DecidableEq V] {junk : V} {isnan : V → Bool} {dim : Dim} {dss : List (FSet V)} {out : List (Dim × CVar V)}
    (hds : ∀ s ∈ dss, s.Ok) (h : concatMaps junk isnan (dss.map FSet.seenMap) dim = .ok out) : (out.map Prod.fst).Nodup := by
  obtain ⟨m, rest, e1, e2⟩ := concatMaps_keys h
  cases dss with
  | nil => cases e1
  | cons s dss =>
    simp only [List.map_cons, List.cons.injEq] at e1
    rw [e2, ← e1.1]
    exact (hds s List.mem_cons_self).coords.2.sublist (List.filter_sublist.map _)

/-- The dataset `out` after the items `names`. -/
structure Built [DecidableEq V] (junk : V) (isnan : V → Bool) (dss : List (FSet V)) (dim : Dim) (names : List Dim) (out : FSet V) : Prop where
  valid : out.valid = true
  wf : WF out.sizes
  coords : concatMaps junk isnan (dss.map FSet.seenMap) dim = .ok out.coords
  aligned : ∀ k ∈ out.coords.map Prod.fst, out.aligned k = true
  itemNames : out.items.map Prod.fst = names
  nonempty : names ≠ []
  items : ∀ p ∈ out.items, ∃ das a, Named p.1 dss das ∧ concatFull junk isnan das dim = .ok a ∧ p.2 = ⟨a.data, a.masks, a.attrs⟩ ∧ SameSizes out.sizes a.data.dims

/-- Before the first item, or after the items `names`. -/
def State [DecidableEq V] (junk : V) (isnan : V → Bool) (dss : List (FSet V)) (dim : Dim) (names : List Dim) (out : FSet V) : Prop :=
  (names = [] ∧ out.valid = false ∧ out.coords = [] ∧ out.items = []) ∨ Built junk isnan dss dim names out

/-- Adding an item always succeeds. -/
theorem insert_item [DecidableEq V] {junk : V} {isnan : V → Bool} {dss : List (FSet V)} {dim n : Dim} {names : List Dim} {out : FSet V}
    {das : List (FArray V)} {a : FArray V} (hds : ∀ s ∈ dss, s.Ok) (hst : State junk isnan dss dim names out) (hn : Named n dss das)
    (ha : concatFull junk isnan das dim = .ok a) : ∃ out', out.setArrayInit n a = .ok out' ∧ Built junk isnan dss dim (names ++ [n]) out' := by
  have hco := item_coords hds hn ha
  have hnd := seen_keys hds hco
  obtain ⟨f1, _, _, _, f5, _, _⟩ := concatFull_ok ha
  have hw : WF a.data.dims := (C43_concat (named_ok hds hn) f1).1.wf
  rcases hst with ⟨h1, h2, h3, h4⟩ | hb
  · obtain ⟨s', g1, g2, g3, g4, g5, g6⟩ := setArrayInit_first (n := n) h2 h3 h4 hw f5 hnd
    refine ⟨s', g1, g2, by rw [g3]; exact hw, by rw [g4]; exact hco, ?_, by rw [g5, h1]; rfl, by simp, ?_⟩
    · intro k hk
      rw [g4] at hk
      rw [g6 k hk]
      exact concatFull_aligned ha hk
    · intro p hp
      rw [g5, List.mem_singleton] at hp
      subst hp
      exact ⟨das, a, hn, ha, rfl, by rw [g3]; exact SameSizes.rfl'⟩
  · have hcc : out.coords = a.coords := Except.ok.inj (hb.coords.symm.trans hco)
    have hss : SameSizes out.sizes a.data.dims := by
      cases hi : out.items with
      | nil => exact absurd (by rw [← hb.itemNames, hi]; rfl) hb.nonempty
      | cons p rest =>
        obtain ⟨das', a', q1, q2, _, q4⟩ := hb.items p (by rw [hi]; exact List.mem_cons_self)
        exact q4.trans (concat_dims_same (named_data hds q1 hn) (concatFull_ok q2).1 f1)
    refine ⟨_, setArrayInit_next hb.valid hcc hb.wf hw hss hnd, hb.valid, hb.wf, hb.coords, hb.aligned, ?_, by simp, ?_⟩
    · simp [hb.itemNames]
    · intro p hp
      rcases List.mem_append.1 hp with hp | hp
      · exact hb.items p hp
      · rw [List.mem_singleton] at hp
        subst hp
        exact ⟨das, a, hn, ha, rfl, hss⟩

open Classical in
theorem loop_state [DecidableEq V] {junk : V} {isnan : V → Bool} {dss : List (FSet V)} {dim : Dim} (hds : ∀ s ∈ dss, s.Ok) :
    ∀ (l : List (Dim × FItem V)) (names : List Dim) (out r : FSet V), State junk isnan dss dim names out →
      l.foldlM (concatStep junk isnan dss dim) out = .ok r →
      State junk isnan dss dim (names ++ (l.map Prod.fst).filter (fun n => decide (CommonItem dss n))) r
  | [], names, out, r, hst, h => by
    cases h
    simpa using hst
  | p :: l, names, out, r, hst, h => by
    rw [List.foldlM_cons] at h
    simp only [bind, Except.bind] at h
    cases h1 : concatStep junk isnan dss dim out p with
    | error e => rw [h1] at h; cases h
    | ok out1 =>
      rw [h1] at h
      unfold concatStep at h1
      by_cases hcm : CommonItem dss p.1
      · rw [if_pos (common_iff.2 hcm)] at h1
        cases h2 : dss.mapM (FSet.get p.1) with
        | error e => rw [h2] at h1; cases h1
        | ok das =>
          rw [h2] at h1; dsimp only at h1
          cases h3 : concatFull junk isnan das dim with
          | error e => rw [h3] at h1; cases h1
          | ok a =>
            rw [h3] at h1; dsimp only at h1
            obtain ⟨out', g1, g2⟩ := insert_item hds hst (mapM_named.1 h2) h3
            rw [h1] at g1
            cases g1
            have := loop_state hds l (names ++ [p.1]) out1 r (.inr g2) h
            rw [List.map_cons, List.filter_cons_of_pos (by simpa using hcm), List.append_cons]
            exact this
      · rw [if_neg (fun hc => hcm (common_iff.1 hc))] at h1
        cases h1
        have := loop_state hds l names out r hst h
        rw [List.map_cons, List.filter_cons_of_neg (by simpa using hcm)]
        exact this

theorem loop_exists [DecidableEq V] {junk : V} {isnan : V → Bool} {dss : List (FSet V)} {dim : Dim} (hds : ∀ s ∈ dss, s.Ok)
    (hex : ∀ n das, Named n dss das → ∃ a, concatFull junk isnan das dim = .ok a) :
    ∀ (l : List (Dim × FItem V)) (names : List Dim) (out : FSet V), State junk isnan dss dim names out →
      ∃ r, l.foldlM (concatStep junk isnan dss dim) out = .ok r
  | [], _, out, _ => ⟨out, rfl⟩
  | p :: l, names, out, hst => by
    rw [List.foldlM_cons]
    simp only [bind, Except.bind]
    by_cases hcm : CommonItem dss p.1
    · obtain ⟨das, hd⟩ := named_exists hcm
      obtain ⟨a, ha⟩ := hex _ _ hd
      obtain ⟨out', g1, g2⟩ := insert_item hds hst hd ha
      have : concatStep junk isnan dss dim out p = .ok out' := by
        unfold concatStep
        rw [if_pos (common_iff.2 hcm), mapM_named.2 hd]
        dsimp only
        rw [ha]
        exact g1
      rw [this]
      exact loop_exists hds hex l (names ++ [p.1]) out' (.inr g2)
    · have : concatStep junk isnan dss dim out p = .ok out := by
        unfold concatStep
        rw [if_neg (fun hc => hcm (common_iff.1 hc))]
      rw [this]
      exact loop_exists hds hex l names out hst

end Scipp.Concat
