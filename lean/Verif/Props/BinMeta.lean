import Verif.Lemmas.BinMeta2
/-
C77: dimensions, coords, masks and attrs of the result of `bin`.
-/
namespace Scipp.Props
open Scipp Sizes BinMeta

/-- A variable of the given dimensions, for examples. (The strides do not matter.) -/
def c77Var (dims : Dims) (obj : Nat) (aligned : Bool := true) : Entry := ⟨⟨dims, (Sizes.labels dims).map fun _ => 1, 0, false⟩, obj, aligned, false⟩

/-- What is taken for granted about the arguments of `bin`: dimension labels of the data, the edges and the groups, and the keys of the dictionaries, are different. -/
structure C77Args (x : Input) (edges groups : List Entry) : Prop where
  dims : WF x.dims
  valid : Dim.invalid ∉ labels x.dims
  edges : ∀ c ∈ edges, (labels c.dims).Nodup
  groups : ∀ c ∈ groups, (labels c.dims).Nodup
  bufCoords : Keys x.bufCoords
  bufMasks : Keys x.bufMasks
  bufAttrs : Keys x.bufAttrs
  coords : Keys x.coords
  masks : Keys x.masks
  attrs : Keys x.attrs

/-- **C77** (dimensions): dimensions of binned data stay in their order, with the number of bins given by the groups or the edges for them, without those that are erased. Dimensions
the data does not have come last, those of the groups before those of the edges. -/
theorem C77_dims (x : Input) (edges groups : List Entry) (erase : List Dim) (out : Output) (hx : C77Args x edges groups) (hb : x.binned = true)
    (h : bin x edges groups erase = .ok out) :
    out.dims = (x.dims.filter fun p => p.1 ∉ erase).map (newLen edges groups) ++
      (groups.filter fun c => dimOf c ∉ labels x.dims).map (fun c => (dimOf c, lenOf c)) ++
      (edges.filter fun c => dimOf c ∉ labels x.dims).map (fun c => (dimOf c, lenOf c - 1)) := by
  obtain ⟨b, s, c, m, a, hact, hs, hsq, -⟩ := bin_ok h
  obtain ⟨hgood, hdims, -, -, -, hne⟩ := axisActions_ok hx.dims.1 hx.edges hx.groups hact
  unfold sizesDims at hs
  rw [hb, if_pos rfl] at hs
  have hsub : (x.dims.filter (fun p => !contains b.dims p.1)).Sublist x.dims := List.filter_sublist
  have hDgood : Good (x.dims.filter (fun p => !contains b.dims p.1)) :=
    ⟨⟨hx.dims.1.sublist (List.Sublist.map _ hsub), fun p hp => hx.dims.2 p (hsub.subset hp)⟩,
      fun hc => hx.valid ((List.Sublist.map _ hsub).subset hc)⟩
  have hs := merge_disjoint hDgood hgood (by
    intro d hd hc
    obtain ⟨p, hp, rfl⟩ := List.mem_map.1 hd
    have := (List.mem_filter.1 hp).2
    exact contains_false.1 (by simpa using this) hc) hs
  unfold squeezeDims at hsq
  split at hsq
  swap
  · cases hsq
  injection hsq with hsq
  have htake := List.takeWhile_append_dropWhile (p := fun q : Dim × Int => !isKey edges groups q.1) (l := x.dims)
  change _ ++ handled edges groups false x.dims = x.dims at htake
  set pre := x.dims.takeWhile (fun q : Dim × Int => !isKey edges groups q.1) with hpre
  set han := handled edges groups false x.dims with hhan
  have hnd : (labels (pre ++ han)).Nodup := by rw [htake]; exact hx.dims.1
  rw [labels_append, List.nodup_append] at hnd
  have hlab : labels b.dims = erase ++ labels (han.filter fun p => !erase.contains p.1) ++ (groups.filter (fun c => !contains x.dims (dimOf c))).map dimOf ++
      (edges.filter (fun c => !contains x.dims (dimOf c))).map dimOf := by
    rw [hdims]
    simp only [labels, List.map_append, List.map_map]
    have e1 : (Prod.fst ∘ fun d : Dim => ((d, 1) : Dim × Int)) = id := rfl
    have e2 : Prod.fst ∘ newLen edges groups = Prod.fst := rfl
    rw [e1, e2, List.map_id]
    rfl
  have hnotdata : ∀ (cs : List Entry) (d : Dim), d ∈ (cs.filter (fun c => !contains x.dims (dimOf c))).map dimOf → d ∉ labels x.dims := by
    intro cs d hd
    obtain ⟨c, hc, rfl⟩ := List.mem_map.1 hd
    have := (List.mem_filter.1 hc).2
    exact contains_false.1 (by simpa using this)
  have hD : (x.dims.filter (fun p => !contains b.dims p.1)).filter (fun p => !erase.contains p.1) = pre.filter (fun p => !erase.contains p.1) := by
    rw [← htake, List.filter_append, List.filter_append]
    have h2 : han.filter (fun p => !contains b.dims p.1) = [] := by
      refine List.filter_eq_nil_iff.2 fun p hp => ?_
      have : p.1 ∈ labels b.dims := by
        rw [hlab]
        by_cases he : p.1 ∈ erase
        · simp [he]
        · have : p.1 ∈ labels (han.filter fun p => !erase.contains p.1) := List.mem_map_of_mem (List.mem_filter.2 ⟨hp, by simpa using he⟩)
          simp only [List.mem_append]
          exact .inl (.inl (.inr this))
      simp [contains_iff.2 this]
    rw [h2, List.filter_nil, List.append_nil, List.filter_filter]
    refine List.filter_congr fun p hp => ?_
    by_cases he : p.1 ∈ erase
    · simp [he]
    · have h3 : p.1 ∉ labels b.dims := by
        rw [hlab]
        have hpx : p.1 ∈ labels x.dims := by rw [← htake, labels_append]; exact List.mem_append.2 (.inl (mem_labels (x := p.2) hp))
        simp only [List.mem_append, not_or]
        refine ⟨⟨⟨he, fun hc => ?_⟩, fun hc => hnotdata _ _ hc hpx⟩, fun hc => hnotdata _ _ hc hpx⟩
        exact hnd.2.2 _ (mem_labels (x := p.2) hp) _ ((List.Sublist.map _ List.filter_sublist).subset hc) rfl
      simp [he, contains_false.2 h3]
  have hndb : (labels b.dims).Nodup := hgood.1.1
  rw [hlab, List.append_assoc, List.append_assoc, List.nodup_append] at hndb
  have hB : b.dims.filter (fun p => !erase.contains p.1) = b.dims.drop erase.length := by
    rw [hdims, List.append_assoc, List.append_assoc, List.filter_append]
    rw [List.drop_left' (by simp)]
    rw [List.filter_eq_nil_iff.2 (by simp), List.nil_append]
    refine List.filter_eq_self.2 fun p hp => ?_
    have : p.1 ∉ erase := by
      intro hc
      refine hndb.2.2 _ hc p.1 ?_ rfl
      have := List.mem_map_of_mem (f := Prod.fst) hp
      simp only [List.map_append, List.map_map] at this
      simpa [labels, Function.comp_def, newLen, List.map_map] using this
    simpa using this
  have hpremap : (pre.filter (fun p => !erase.contains p.1)).map (newLen edges groups) = pre.filter (fun p => !erase.contains p.1) := by
    refine (List.map_congr_left fun p hp => ?_).trans (List.map_id _)
    have hp := (List.mem_filter.1 hp).1
    have hk : isKey edges groups p.1 = false := by
      have : ∀ (l : Dims), p ∈ l.takeWhile (fun q : Dim × Int => !isKey edges groups q.1) → isKey edges groups p.1 = false := by
        intro l
        induction l with
        | nil => simp
        | cons q l ih =>
          intro h
          rw [List.takeWhile_cons] at h
          split at h
          · rename_i hq
            rcases List.mem_cons.1 h with rfl | h
            · simpa using hq
            · exact ih h
          · simp at h
      exact this _ hp
    unfold isKey at hk
    rw [newLen_eq]
    rw [Bool.or_eq_false_iff] at hk
    rw [Option.isSome_eq_false_iff.1 hk.1 |> Option.isNone_iff_eq_none.1, Option.isSome_eq_false_iff.1 hk.2 |> Option.isNone_iff_eq_none.1]
    rfl
  rw [← hsq, hs, List.filter_append, hD, hB, hdims]
  rw [List.append_assoc, List.append_assoc, List.drop_left' (by simp)]
  have hf : ∀ cs : List Entry, cs.filter (fun c => decide (dimOf c ∉ labels x.dims)) = cs.filter (fun c => !contains x.dims (dimOf c)) := by
    intro cs
    refine List.filter_congr fun c _ => ?_
    cases hc : contains x.dims (dimOf c)
    · simpa using contains_false.1 hc
    · simpa using contains_iff.1 hc
  have he : x.dims.filter (fun p => decide (p.1 ∉ erase)) = (pre ++ han).filter (fun p => !erase.contains p.1) := by
    rw [htake]
    refine List.filter_congr fun c _ => ?_
    by_cases hc : c.1 ∈ erase <;> simp [hc]
  rw [hf, hf, he, List.filter_append, List.map_append, hpremap]
  simp only [List.append_assoc]

/-- **C77** (dimensions): a table gets the dimensions of the groups and the edges. If one of them is the dimension of the table it comes first. -/
theorem C77_dims_table (x : Input) (edges groups : List Entry) (erase : List Dim) (out : Output) (row : Dim) (n : Int) (hx : C77Args x edges groups) (hb : x.binned = false)
    (hrow : x.dims = [(row, n)]) (h : bin x edges groups erase = .ok out) :
    out.dims = (match keyFor edges groups row with | some _ => [newLen edges groups (row, n)] | none => []) ++
      (groups.filter fun c => dimOf c ≠ row).map (fun c => (dimOf c, lenOf c)) ++
      (edges.filter fun c => dimOf c ≠ row).map (fun c => (dimOf c, lenOf c - 1)) := by
  obtain ⟨b, s, c, m, a, hact, hs, hsq, -⟩ := bin_ok h
  obtain ⟨hgood, hdims, -, -, -, hne⟩ := axisActions_ok hx.dims.1 hx.edges hx.groups hact
  unfold sizesDims at hs
  rw [hb] at hs
  simp only [Bool.false_eq_true, if_false] at hs
  have hs := merge_disjoint ⟨⟨by simp [labels], by simp⟩, by simp [labels]⟩ hgood (by simp [labels]) hs
  rw [List.nil_append] at hs
  subst hs
  unfold squeezeDims at hsq
  split at hsq
  swap
  · cases hsq
  injection hsq with hsq
  have hhan : (handled edges groups false x.dims).filter (fun p => !erase.contains p.1) =
      (match keyFor edges groups row with | some _ => [(row, n)] | none => []) := by
    have hkk : isKey edges groups row = (keyFor edges groups row).isSome := by
      change _ = Option.isSome (match keyOf groups row with | some g => some g | none => keyOf edges row)
      unfold isKey
      cases keyOf groups row <;> simp
    unfold handled
    simp only [Bool.false_eq_true, if_false, hrow]
    cases hk : keyFor edges groups row with
    | none =>
      rw [hk] at hkk
      simp [hkk]
    | some g =>
      rw [hk] at hkk
      have := hne row (by simp [hrow, labels]) (by simpa using hkk)
      simp [hkk, this]
  have hndb := hgood.1.1
  rw [hdims] at hndb hsq
  rw [← hsq]
  have hB : ∀ l r : Dims, (labels (erase.map (fun d => ((d, 1) : Dim × Int)) ++ l ++ r)).Nodup → (erase.map (fun d => ((d, 1) : Dim × Int)) ++ l ++ r).filter (fun p => !erase.contains p.1) = l ++ r := by
    intro l r hnd
    rw [List.append_assoc] at hnd ⊢
    rw [List.filter_append, List.filter_eq_nil_iff.2 (by simp), List.nil_append]
    refine List.filter_eq_self.2 fun p hp => ?_
    rw [labels_append, List.nodup_append] at hnd
    have : p.1 ∉ erase := fun hc => hnd.2.2 p.1 (by simpa [labels] using hc) p.1 (mem_labels (x := p.2) hp) rfl
    simpa using this
  rw [List.append_assoc _ _ (List.map (fun c => (dimOf c, lenOf c - 1)) _), ] at hndb ⊢
  rw [hB _ _ hndb, hhan]
  have hf : ∀ cs : List Entry, cs.filter (fun c => decide (dimOf c ≠ row)) = cs.filter (fun c => !contains x.dims (dimOf c)) := by
    intro cs
    refine List.filter_congr fun c _ => ?_
    rw [hrow]
    by_cases hc : dimOf c = row
    · simp [hc, contains, labels]
    · have : contains [(row, n)] (dimOf c) = false := contains_false.2 (by simpa [labels] using hc)
      simp [hc, this]
  rw [hf, hf]
  cases keyFor edges groups row <;> simp

/-- **C77** (coords): a coord of the result is the groups or edges given for that name, aligned; otherwise the coord of the events that does not depend on the dimension of the events;
otherwise that of the array, if the result has a place for it. There are no others. -/
theorem C77_coords (x : Input) (edges groups : List Entry) (erase : List Dim) (out : Output) (hx : C77Args x edges groups)
    (h : bin x edges groups erase = .ok out) (k : Dim) (e : Entry) :
    lookupEntry out.coords k = some e ↔
      (∃ c, keyFor edges groups k = some c ∧ e = { c with aligned := true }) ∨
      (keyFor edges groups k = none ∧ lookupEntry x.bufCoords k = some e ∧ ¬BinMeta.DependsOn e x.bufDim) ∨
      (keyFor edges groups k = none ∧ (∀ e', lookupEntry x.bufCoords k = some e' → BinMeta.DependsOn e' x.bufDim) ∧
        lookupEntry x.coords k = some e ∧ ¬Gone edges groups erase x.bufDim e) := by
  obtain ⟨b, s, c, m, a, hact, hs, hsq, hc, hc', -⟩ := bin_ok h
  have hkn := keys_dims_nodup hx.dims.1 hx.edges hx.groups hact
  have hn0 : ((extractUnbinned x.bufDim (dropGrouped x.bufCoords groups)).map Prod.fst).Nodup := filter_keys_nodup (dropGrouped_nodup _ _ hx.bufCoords)
  have hn1 : ((insertKeys (b.keys .bin ++ b.keys .group) (extractUnbinned x.bufDim (dropGrouped x.bufCoords groups))).map Prod.fst).Nodup := by
    have := insert_fold_nodup (fun _ _ => true) dimOf (fun c => { c with aligned := true }) (b.keys .bin ++ b.keys .group) _ hn0
    simpa [insertKeys] using this
  have hn2 := insert_fold_nodup (fun o p => !rebinned (erase ++ (b.keys .bin ++ b.keys .group).map dimOf) x.bufDim p.2 && (lookupEntry o p.1).isNone)
    Prod.fst Prod.snd x.coords _ hn1
  rw [hc', ofItems_items hn2 hc]
  rw [lookup_insert_new (fun p => !rebinned (erase ++ (b.keys .bin ++ b.keys .group).map dimOf) x.bufDim p.2) (fun o k => (lookupEntry o k).isNone)
    (fun o o' k he => by rw [he]) _ _ _ hx.coords]
  rw [lookup_insertKeys _ _ _ hkn, keyOf_keys hx.dims.1 hx.edges hx.groups hact]
  cases hk : keyFor edges groups k with
  | some c =>
    simp only [Option.some.injEq, reduceCtorEq, false_and, or_false, exists_eq_left']
    cases lookupEntry x.coords k <;> simp [eq_comm]
  | none =>
    have hg : keyOf groups k = none := by
      change (match keyOf groups k with | some g => some g | none => keyOf edges k) = none at hk
      cases hg : keyOf groups k with
      | none => rfl
      | some g => rw [hg] at hk; simp at hk
    have hbuf : ∀ e', lookupEntry (extractUnbinned x.bufDim (dropGrouped x.bufCoords groups)) k = some e' ↔ lookupEntry x.bufCoords k = some e' ∧ ¬BinMeta.DependsOn e' x.bufDim := by
      intro e'
      rw [lookup_unbinned (dropGrouped_nodup _ _ hx.bufCoords), dropGrouped_lookup _ _ _ hg]
    have hgone := fun v => gone_iff hx.dims.1 hx.edges hx.groups hact (bufDim := x.bufDim) (v := v)
    simp only [reduceCtorEq, false_and, exists_false, true_and, false_or]
    cases hl : lookupEntry (extractUnbinned x.bufDim (dropGrouped x.bufCoords groups)) k with
    | some e1 =>
      have h1 := (hbuf e1).1 hl
      have hr : ∀ P : Prop, (some e1 = some e ↔ lookupEntry x.bufCoords k = some e ∧ ¬BinMeta.DependsOn e x.bufDim ∨
          (∀ e', lookupEntry x.bufCoords k = some e' → BinMeta.DependsOn e' x.bufDim) ∧ P) := by
        intro P
        rw [h1.1]
        constructor
        · intro he; injection he with he; subst he; exact .inl ⟨rfl, h1.2⟩
        · rintro (⟨he, -⟩ | ⟨he, -⟩)
          · exact he
          · exact absurd (he _ rfl) h1.2
      cases lookupEntry x.coords k with
      | none => exact hr _
      | some e' => simpa using hr _
    | none =>
      have h1 : ∀ e', lookupEntry x.bufCoords k = some e' → BinMeta.DependsOn e' x.bufDim := by
        intro e' he'
        by_contra hd
        rw [(hbuf e').2 ⟨he', hd⟩] at hl
        cases hl
      have h3 : ∀ Q : Prop, (lookupEntry x.bufCoords k = some e ∧ ¬BinMeta.DependsOn e x.bufDim ∨ (∀ e', lookupEntry x.bufCoords k = some e' → BinMeta.DependsOn e' x.bufDim) ∧ Q) ↔ Q := by
        intro Q
        constructor
        · rintro (⟨he, hd⟩ | ⟨-, h⟩)
          · exact absurd (h1 _ he) hd
          · exact h
        · exact fun h => .inr ⟨h1, h⟩
      rw [h3]
      cases lookupEntry x.coords k with
      | none => simp
      | some e' =>
        cases hr : rebinned (erase ++ (b.keys .bin ++ b.keys .group).map dimOf) x.bufDim e'
        · have : ¬Gone edges groups erase x.bufDim e' := fun hc => by rw [(hgone e').2 hc] at hr; cases hr
          simp only [hr, Option.isNone_none, Bool.not_false, Bool.and_self, if_true, Option.some.injEq]
          constructor
          · rintro rfl; exact ⟨rfl, this⟩
          · exact fun h => h.1
        · have := (hgone e').1 hr
          simp only [hr, Bool.not_true, Bool.false_and, Bool.false_eq_true, if_false, reduceCtorEq, false_iff, Option.some.injEq, not_and, not_not]
          rintro rfl
          exact this

/-- **C77** (masks): a mask of the result is one of the array the result has a place for, otherwise a mask of the events that does not depend on the dimension of the events. -/
theorem C77_masks (x : Input) (edges groups : List Entry) (erase : List Dim) (out : Output) (hx : C77Args x edges groups)
    (h : bin x edges groups erase = .ok out) (k : Dim) (e : Entry) :
    lookupEntry out.masks k = some e ↔
      (lookupEntry x.masks k = some e ∧ ¬Gone edges groups erase x.bufDim e) ∨
      ((∀ e', lookupEntry x.masks k = some e' → Gone edges groups erase x.bufDim e') ∧ lookupEntry x.bufMasks k = some e ∧ ¬BinMeta.DependsOn e x.bufDim) := by
  obtain ⟨b, s, c, m, a, hact, hs, hsq, -, -, hm, hm', -⟩ := bin_ok h
  have hn0 : ((extractUnbinned x.bufDim x.bufMasks).map Prod.fst).Nodup := filter_keys_nodup hx.bufMasks
  have hn2 := insert_fold_nodup (fun _ p => !rebinned (erase ++ (b.keys .bin ++ b.keys .group).map dimOf) x.bufDim p.2)
    Prod.fst Prod.snd x.masks _ hn0
  rw [hm', ofItems_items hn2 hm]
  have hfold := lookup_insert_new (fun p => !rebinned (erase ++ (b.keys .bin ++ b.keys .group).map dimOf) x.bufDim p.2) (fun _ _ => true)
    (fun o o' k he => rfl) x.masks (extractUnbinned x.bufDim x.bufMasks) k hx.masks
  simp only [Bool.and_true] at hfold
  rw [hfold]
  have hgone := fun v => gone_iff hx.dims.1 hx.edges hx.groups hact (bufDim := x.bufDim) (v := v)
  cases hl : lookupEntry x.masks k with
  | none => simp [lookup_unbinned hx.bufMasks]
  | some e1 =>
    cases hr : rebinned (erase ++ (b.keys .bin ++ b.keys .group).map dimOf) x.bufDim e1
    · have : ¬Gone edges groups erase x.bufDim e1 := fun hc => by rw [(hgone e1).2 hc] at hr; cases hr
      simp only [hr, Bool.not_false, if_true, Option.some.injEq]
      constructor
      · rintro rfl; exact .inl ⟨rfl, this⟩
      · rintro (⟨h, -⟩ | ⟨h, -⟩)
        · exact h
        · exact absurd (h e1 rfl) this
    · have hg := (hgone e1).1 hr
      simp only [hr, Bool.not_true, Bool.false_eq_true, if_false, lookup_unbinned hx.bufMasks, Option.some.injEq]
      constructor
      · intro h; exact .inr ⟨by rintro e' rfl; exact hg, h⟩
      · rintro (⟨rfl, h⟩ | ⟨-, h⟩)
        · exact absurd hg h
        · exact h

/-- **C77** (attrs): an attr of the result is one of the array the result has a place for, unless the result has a coord of this name, otherwise one of the events that does not depend
on the dimension of the events. -/
theorem C77_attrs (x : Input) (edges groups : List Entry) (erase : List Dim) (out : Output) (hx : C77Args x edges groups)
    (h : bin x edges groups erase = .ok out) (k : Dim) (e : Entry) :
    lookupEntry out.attrs k = some e ↔
      (lookupEntry x.attrs k = some e ∧ ¬Gone edges groups erase x.bufDim e ∧ lookupEntry out.coords k = none) ∨
      ((∀ e', lookupEntry x.attrs k = some e' → Gone edges groups erase x.bufDim e' ∨ lookupEntry out.coords k ≠ none) ∧
        lookupEntry x.bufAttrs k = some e ∧ ¬BinMeta.DependsOn e x.bufDim) := by
  obtain ⟨b, s, c, m, a, hact, hs, hsq, hc, hc', -, -, ha, ha', -⟩ := bin_ok h
  have hkn := keys_dims_nodup hx.dims.1 hx.edges hx.groups hact
  have hcn0 : ((extractUnbinned x.bufDim (dropGrouped x.bufCoords groups)).map Prod.fst).Nodup := filter_keys_nodup (dropGrouped_nodup _ _ hx.bufCoords)
  have hcn1 : ((insertKeys (b.keys .bin ++ b.keys .group) (extractUnbinned x.bufDim (dropGrouped x.bufCoords groups))).map Prod.fst).Nodup := by
    have := insert_fold_nodup (fun _ _ => true) dimOf (fun c => { c with aligned := true }) (b.keys .bin ++ b.keys .group) _ hcn0
    simpa [insertKeys] using this
  have hcn2 := insert_fold_nodup (fun o p => !rebinned (erase ++ (b.keys .bin ++ b.keys .group).map dimOf) x.bufDim p.2 && (lookupEntry o p.1).isNone)
    Prod.fst Prod.snd x.coords _ hcn1
  have hci := ofItems_items hcn2 hc
  change c.items = insertCoords _ _ _ _ at hci
  rw [← hci, ← hc'] at ha
  have hn0 : ((extractUnbinned x.bufDim x.bufAttrs).map Prod.fst).Nodup := filter_keys_nodup hx.bufAttrs
  have hn2 := insert_fold_nodup (fun _ p => !rebinned (erase ++ (b.keys .bin ++ b.keys .group).map dimOf) x.bufDim p.2 && (lookupEntry out.coords p.1).isNone)
    Prod.fst Prod.snd x.attrs _ hn0
  rw [ha', ofItems_items hn2 ha]
  have hfold := lookup_insert_new (fun p => !rebinned (erase ++ (b.keys .bin ++ b.keys .group).map dimOf) x.bufDim p.2 && (lookupEntry out.coords p.1).isNone)
    (fun _ _ => true) (fun o o' k he => rfl) x.attrs (extractUnbinned x.bufDim x.bufAttrs) k hx.attrs
  simp only [Bool.and_true] at hfold
  rw [hfold]
  have hgone := fun v => gone_iff hx.dims.1 hx.edges hx.groups hact (bufDim := x.bufDim) (v := v)
  cases hl : lookupEntry x.attrs k with
  | none => simp [lookup_unbinned hx.bufAttrs]
  | some e1 =>
    cases hr : (!rebinned (erase ++ (b.keys .bin ++ b.keys .group).map dimOf) x.bufDim e1 && (lookupEntry out.coords k).isNone)
    · have hg : Gone edges groups erase x.bufDim e1 ∨ lookupEntry out.coords k ≠ none := by
        rw [Bool.and_eq_false_iff] at hr
        rcases hr with hr | hr
        · exact .inl ((hgone e1).1 (by simpa using hr))
        · exact .inr (fun hc => by rw [hc] at hr; cases hr)
      simp only [hr, Bool.false_eq_true, if_false, lookup_unbinned hx.bufAttrs, Option.some.injEq]
      constructor
      · intro h; exact .inr ⟨by rintro e' rfl; exact hg, h⟩
      · rintro (⟨rfl, h⟩ | ⟨-, h⟩)
        · exact absurd hg (by simp [h])
        · exact h
    · rw [Bool.and_eq_true] at hr
      have h1 : ¬Gone edges groups erase x.bufDim e1 := fun hc => by rw [(hgone e1).2 hc] at hr; simp at hr
      have h2 : lookupEntry out.coords k = none := by simpa using hr.2
      simp only [hr.1, hr.2, Bool.and_self, if_true, Option.some.injEq]
      constructor
      · rintro rfl; exact .inl ⟨rfl, h1, h2⟩
      · rintro (⟨h, -⟩ | ⟨h, -⟩)
        · exact h
        · exact absurd (h e1 rfl) (by simp [h1, h2])

/-- **C77** (masks): if the dimension of the events is not one of those of a mask, the mask is kept or has been applied, i.e., the result has none of the events of the bins that are masked.
(Partial: the dimension of the events can be that of a mask, `C77_wrong_mask_lost`.) -/
theorem C77_masks_partial (x : Input) (edges groups : List Entry) (erase : List Dim) (out : Output) (hx : C77Args x edges groups) (hb : x.binned = true)
    (h : bin x edges groups erase = .ok out) (k : Dim) (e : Entry) (he : (k, e) ∈ x.masks) (hd : ¬BinMeta.DependsOn e x.bufDim) :
    lookupEntry out.masks k = some e ∨ (k, e) ∈ out.hidden := by
  have hl := lookup_of_mem hx.masks he
  by_cases hg : Gone edges groups erase x.bufDim e
  · right
    obtain ⟨b, s, c, m, a, hact, -, -, -, -, -, -, -, -, hh⟩ := bin_ok h
    obtain ⟨-, hdims, hacts, -⟩ := axisActions_ok hx.dims.1 hx.edges hx.groups hact
    rw [hh, hb, if_pos rfl, List.mem_filter]
    refine ⟨he, ?_⟩
    rcases hg with hg | ⟨d, h1, h2⟩
    · exact absurd hg hd
    refine List.any_eq_true.2 ⟨d, h1, contains_iff.2 ?_⟩
    rw [← mem_keys_dims hx.dims.1 hx.edges hx.groups hact] at h2
    rcases h2 with h2 | h2
    · rw [hdims]
      simp [labels, h2]
    · obtain ⟨c, hc, rfl⟩ := List.mem_map.1 h2
      exact key_in_dims hx.dims.1 hx.edges hx.groups hact hc
  · exact .inl ((C77_masks x edges groups erase out hx h k e).2 (.inl ⟨hl, hg⟩))

/-- **C77** (masks): a mask that is applied depends on a dimension that is erased, on one that gets new bins, or on one of the data to the right of one that gets new bins. -/
theorem C77_hidden (x : Input) (edges groups : List Entry) (erase : List Dim) (out : Output) (hx : C77Args x edges groups) (hb : x.binned = true)
    (h : bin x edges groups erase = .ok out) (k : Dim) (e : Entry) (he : (k, e) ∈ out.hidden) :
    (k, e) ∈ x.masks ∧ ∃ d, BinMeta.DependsOn e d ∧ (d ∈ erase ∨ (keyFor edges groups d).isSome = true ∨
      ∃ l d' r, labels x.dims = l ++ d' :: r ∧ d ∈ r ∧ (keyFor edges groups d').isSome = true) := by
  obtain ⟨b, s, c, m, a, hact, -, -, -, -, -, -, -, -, hh⟩ := bin_ok h
  obtain ⟨-, hdims, hacts, -⟩ := axisActions_ok hx.dims.1 hx.edges hx.groups hact
  rw [hh, hb, if_pos rfl, List.mem_filter] at he
  refine ⟨he.1, ?_⟩
  obtain ⟨d, h1, h2⟩ := List.any_eq_true.1 he.2
  refine ⟨d, h1, ?_⟩
  replace h2 := contains_iff.1 h2
  have hkey : ∀ d, (keyFor edges groups d).isSome = isKey edges groups d := by
    intro d
    change Option.isSome (match keyOf groups d with | some g => some g | none => keyOf edges d) = _
    unfold isKey
    cases keyOf groups d <;> simp
  have hmem : ∀ c, c ∈ groups ∨ c ∈ edges → (keyFor edges groups (dimOf c)).isSome = true := by
    intro c hc
    rw [hkey, isKey, Bool.or_eq_true]
    rcases hc with hc | hc
    · left
      rw [Option.isSome_iff_ne_none]
      exact fun hn => keyOf_none.1 hn c hc rfl
    · right
      rw [Option.isSome_iff_ne_none]
      exact fun hn => keyOf_none.1 hn c hc rfl
  rw [hdims] at h2
  simp only [labels, List.map_append, List.mem_append, List.mem_map, List.mem_filter] at h2
  rcases h2 with ((⟨p, ⟨d', h2, rfl⟩, rfl⟩ | ⟨q, ⟨p, ⟨h2, -⟩, rfl⟩, rfl⟩) | ⟨p, ⟨c, ⟨h2, -⟩, rfl⟩, rfl⟩) | ⟨p, ⟨c, ⟨h2, -⟩, rfl⟩, rfl⟩
  · exact .inl h2
  · right
    unfold handled at h2
    simp only [Bool.false_eq_true, if_false] at h2
    have : ∀ (l : Dims), p ∈ l.dropWhile (fun q : Dim × Int => !isKey edges groups q.1) → isKey edges groups p.1 = true ∨
        ∃ a d' r, labels l = a ++ d' :: r ∧ p.1 ∈ r ∧ isKey edges groups d' = true := by
      intro l
      induction l with
      | nil => simp
      | cons q l ih =>
        intro h
        rw [List.dropWhile_cons] at h
        split at h
        · rcases ih h with h | ⟨a, d', r, h1, h2, h3⟩
          · exact .inl h
          · refine .inr ⟨q.1 :: a, d', r, ?_, h2, h3⟩
            simp only [labels, List.map_cons, List.cons_append] at h1 ⊢
            rw [h1]
        · rename_i hq
          rcases List.mem_cons.1 h with rfl | h
          · exact .inl (by simpa using hq)
          · exact .inr ⟨[], q.1, labels l, rfl, mem_labels (x := p.2) h, by simpa using hq⟩
    simp only [hkey]
    exact this _ h2
  · exact .inr (.inl (hmem c (.inl h2)))
  · exact .inr (.inl (hmem c (.inr h2)))

/-- **C77** (validity): coords, masks and attrs of the result fit its dimensions: each has the dimensions of the result, up to one of them for bin edges. -/
theorem C77_fits (x : Input) (edges groups : List Entry) (erase : List Dim) (out : Output) (hx : C77Args x edges groups)
    (hv : ∀ e, e ∈ edges ∨ e ∈ groups ∨ e ∈ (x.bufCoords ++ x.bufMasks ++ x.bufAttrs ++ x.coords ++ x.masks ++ x.attrs).map Prod.snd → e.view.WF)
    (h : bin x edges groups erase = .ok out) (k : Dim) (e : Entry) (he : (k, e) ∈ out.coords ∨ (k, e) ∈ out.masks ∨ (k, e) ∈ out.attrs) :
    Fits out.dims e.dims := by
  obtain ⟨b, s, c, m, a, hact, hs, hsq, hc, hc', hm, hm', ha, ha', -⟩ := bin_ok h
  have hwf := out_wf hx.dims hx.valid hx.edges hx.groups hact hs hsq
  have hv' : ∀ l : List (Dim × Entry), (∀ p ∈ l, p ∈ x.bufCoords ++ x.bufMasks ++ x.bufAttrs ++ x.coords ++ x.masks ++ x.attrs) → ∀ p ∈ l, p.2.view.WF :=
    fun l hl p hp => hv _ (.inr (.inr (List.mem_map_of_mem (hl p hp))))
  have hkeys : ∀ e ∈ b.keys .bin ++ b.keys .group, e.view.WF := by
    intro e he
    rcases List.mem_append.1 he with he | he
    · exact hv e (.inl ((mem_keys_bin hx.dims.1 hx.edges hx.groups hact e).1 he).1)
    · exact hv e (.inr (.inl ((mem_keys_group hx.dims.1 hx.edges hx.groups hact e).1 he)))
  have hcw : ∀ p ∈ insertCoords (erase ++ (b.keys .bin ++ b.keys .group).map dimOf) x.bufDim x.coords
        (insertKeys (b.keys .bin ++ b.keys .group) (extractUnbinned x.bufDim (dropGrouped x.bufCoords groups))), p.2.view.WF := by
    refine fold_all (fun e : Entry => e.view.WF) (fun o p => !rebinned (erase ++ (b.keys .bin ++ b.keys .group).map dimOf) x.bufDim p.2 && (lookupEntry o p.1).isNone) Prod.fst Prod.snd x.coords _ (hv' x.coords fun p hp => by simp [hp]) ?_
    have := fold_all (fun e : Entry => e.view.WF) (fun _ _ => true) dimOf (fun c => { c with aligned := true }) (b.keys .bin ++ b.keys .group)
      (extractUnbinned x.bufDim (dropGrouped x.bufCoords groups)) (fun c hc => hkeys c hc)
      (hv' _ fun p hp => by have := dropGrouped_sub groups _ _ (List.mem_filter.1 hp).1; simp [this])
    simpa [insertKeys] using this
  have key : ∀ (items : List (Dim × Entry)) (d : SizedDict), SizedDict.ofItems out.dims items false = .ok d → (∀ p ∈ items, p.2.view.WF) →
      (k, e) ∈ d.items → Fits out.dims e.dims := by
    intro items d hd hi he
    obtain ⟨h1, h2⟩ := ofItems_Ok hwf hi hd
    have := (h1.2.2 _ he).2.2
    rwa [h2] at this
  rcases he with he | he | he
  · exact key _ _ hc hcw (hc' ▸ he)
  · refine key _ _ hm ?_ (hm' ▸ he)
    exact fold_all (fun e : Entry => e.view.WF) (fun _ p => !rebinned (erase ++ (b.keys .bin ++ b.keys .group).map dimOf) x.bufDim p.2) Prod.fst Prod.snd x.masks (extractUnbinned x.bufDim x.bufMasks) (hv' x.masks fun p hp => by simp [hp])
      (hv' _ fun p hp => by simp [(List.mem_filter.1 hp).1])
  · refine key _ _ ha ?_ (ha' ▸ he)
    exact fold_all (fun e : Entry => e.view.WF) (fun _ p => !rebinned (erase ++ (b.keys .bin ++ b.keys .group).map dimOf) x.bufDim p.2 && _) Prod.fst Prod.snd x.attrs (extractUnbinned x.bufDim x.bufAttrs)
      (hv' x.attrs fun p hp => by simp [hp]) (hv' _ fun p hp => by simp [(List.mem_filter.1 hp).1])

/-- **C77** (required): there are edges or groups, edges make at least one bin, and there is a coord or attr, of the events or of the bins, for each of them. -/
theorem C77_requires (x : Input) (edges groups : List Entry) (erase : List Dim) (out : Output) (hx : C77Args x edges groups)
    (h : bin x edges groups erase = .ok out) :
    (edges ≠ [] ∨ groups ≠ []) ∧ (∀ c ∈ edges, 2 ≤ lenOf c) ∧
      ∀ c, c ∈ edges ∨ c ∈ groups → ∃ e, (dimOf c, e) ∈ x.bufCoords ++ x.bufAttrs ++ x.coords ++ x.attrs := by
  unfold bin at h
  split at h
  · cases h
  rename_i hv
  split at h
  · cases h
  rename_i b hb
  split at h
  swap
  · cases h
  rename_i hact
  unfold validate at hv
  split at hv
  · cases hv
  rename_i hne
  split at hv
  swap
  · cases hv
  rename_i hlen
  refine ⟨?_, fun c hc => ?_, fun c hc => ?_⟩
  · by_contra hcon
    simp only [not_or, ne_eq, not_not] at hcon
    exact hne (by simp [hcon.1, hcon.2])
  · have := List.all_eq_true.1 hlen c hc
    split at this
    · rename_i n hn
      rw [← at_inner (hx.edges c hc) hn]
      simpa using this
    · cases this
  · obtain ⟨a, ha, h1, h2⟩ := key_action hx.dims.1 hx.edges hx.groups hb hc
    have := List.all_eq_true.1 hact a ha
    simp only [h1, decide_false, Bool.false_or, hasCoord, Bool.or_eq_true, Option.isSome_iff_exists, h2] at this
    rcases this with ((⟨e, h⟩ | ⟨e, h⟩) | ⟨e, h⟩) | ⟨e, h⟩ <;> exact ⟨e, by simp [lookup_mem h]⟩

/-- What is not gone fits what the data becomes if it did fit the data. -/
private theorem kept_fits {x : Input} {edges groups : List Entry} {erase : List Dim} {D : Dims} (hx : WF x.dims)
    (h1 : ∀ p ∈ x.dims, p.1 ≠ x.bufDim → p.1 ∉ erase → (∀ c, c ∈ edges ∨ c ∈ groups → dimOf c ≠ p.1) → p ∈ D)
    (h2 : ∀ d ∈ labels D, d ∈ labels x.dims ∨ ∃ c, (c ∈ edges ∨ c ∈ groups) ∧ dimOf c = d) {e : Entry}
    (hg : ¬Gone edges groups erase x.bufDim e) (he : EntryOk x.dims e) : EntryOk D e := by
  obtain ⟨w, nb, y, f1, f2⟩ := he
  have hdep : ∀ d n, (d, n) ∈ e.dims → d ≠ x.bufDim ∧ d ∉ erase ∧ ∀ c, c ∈ edges ∨ c ∈ groups → dimOf c ≠ d := by
    intro d n hd
    have hd' : BinMeta.DependsOn e d := mem_labels hd
    refine ⟨fun h => hg (.inl (h ▸ hd')), fun h => hg (.inr ⟨d, hd', .inl h⟩), fun c hc hcd => hg (.inr ⟨d, hd', .inr ?_⟩)⟩
    rcases hc with hc | hc
    · exact .inl ⟨c, hc, hcd⟩
    · exact .inr ⟨c, hc, hcd⟩
  refine ⟨w, nb, y, fun d n hd hne => ?_, fun n hn => ?_⟩
  · obtain ⟨g1, g2, g3⟩ := hdep d n hd
    exact h1 (d, n) (f1 d n hd hne) g1 g2 g3
  · obtain ⟨g1, g2, g3⟩ := hdep y n hn
    rcases f2 n hn with h | ⟨m, h, rfl⟩ | ⟨h, rfl⟩
    · exact .inl (h1 (y, n) h g1 g2 g3)
    · exact .inr (.inl ⟨m, h1 (y, m) h g1 g2 g3, rfl⟩)
    · refine .inr (.inr ⟨fun hc => ?_, rfl⟩)
      rcases h2 y hc with h' | ⟨c, hc, hcd⟩
      · exact h h'
      · exact g3 c hc hcd

/-- **C77** (enough): data with coords, masks and attrs that fit it can be binned with edges and groups of one dimension each, all different and none of them erased, if there are coords or
attrs for them. Coords named after a dimension of the data have to be of one dimension, those of the events have to depend on the dimension of the events or on none. -/
theorem C77_succeeds (x : Input) (edges groups : List Entry) (erase : List Dim) (hx : C77Args x edges groups)
    (hb : x.binned = true ∨ ∃ n, x.dims = [(x.bufDim, n)])
    (hkey : ∀ c, c ∈ edges ∨ c ∈ groups → c.view.WF ∧ c.binned = false ∧ c.dims.length = 1 ∧ dimOf c ≠ Dim.invalid)
    (hne : edges ≠ [] ∨ groups ≠ []) (hlen : ∀ c ∈ edges, 2 ≤ lenOf c)
    (hn : ((edges ++ groups).map dimOf ++ erase).Nodup) (hv : Dim.invalid ∉ erase)
    (hcoord : ∀ c, c ∈ edges ∨ c ∈ groups → ∃ e, (dimOf c, e) ∈ x.bufCoords ++ x.bufAttrs ++ x.coords ++ x.attrs)
    (hone : ∀ p ∈ x.coords ++ x.attrs, p.1 ∈ labels x.dims → p.2.dims.length = 1)
    (hfit : ∀ p ∈ x.coords ++ x.masks ++ x.attrs, EntryOk x.dims p.2)
    (hbuf : ∀ p ∈ x.bufCoords ++ x.bufMasks ++ x.bufAttrs, BinMeta.DependsOn p.2 x.bufDim ∨ p.2.view.WF ∧ p.2.binned = false ∧ p.2.dims = []) :
    ∃ out, bin x edges groups erase = .ok out := by
  have hnn : ∀ c, c ∈ edges ∨ c ∈ groups → 0 ≤ lenOf c := by
    intro c hc
    obtain ⟨w, -, l, -⟩ := hkey c hc
    have := (one_dim_at l).2
    have h0 := w.1.2 (dimOf c, lenOf c) (by change _ ∈ c.dims; rw [this]; simp)
    exact h0
  have hU : Usable edges groups erase := ⟨fun c hc => ⟨(hkey c hc).2.2.1, (hkey c hc).2.2.2, hnn c hc⟩, fun c hc => by have := hlen c hc; omega, hn, hv⟩
  obtain ⟨b, hbd⟩ := axisActions_exists (coords := x.attrs ++ x.coords) hU hx.dims hx.valid (fun d e h1 h2 => hone (d, e) (by
    rcases List.mem_append.1 h1 with h | h <;> simp [h]) h2)
  obtain ⟨hgood, hdims, hact, hne1, hng1, hkeyerase⟩ := axisActions_ok hx.dims.1 hx.edges hx.groups hbd
  have hval : validate edges groups = .ok () := by
    unfold validate
    rw [if_neg, if_pos]
    · refine List.all_eq_true.2 fun c hc => ?_
      rw [(one_dim_at (hkey c (.inl hc)).2.2.1).1]
      simpa using hlen c hc
    · simp only [Bool.and_eq_true, List.isEmpty_iff]
      rintro ⟨h1, h2⟩
      rcases hne with h | h
      · exact h h1
      · exact h h2
  have hall : (b.actions.all fun a => decide (a.1 = .existing) || hasCoord x a.2.1) = true := by
    refine List.all_eq_true.2 fun a ha => ?_
    rcases action_dim hx.dims.1 hx.edges hx.groups hbd ha with ⟨h, -⟩ | ⟨c, hc, -, -, hd⟩
    · simp [h]
    · obtain ⟨e, he⟩ := hcoord c hc
      have hsome : ∀ {l : List (Dim × Entry)}, (dimOf c, e) ∈ l → (lookupEntry l (dimOf c)).isSome = true := by
        intro l h
        rw [Option.isSome_iff_ne_none, ne_eq, lookup_none, not_not]
        exact List.mem_map.2 ⟨_, h, rfl⟩
      simp only [Bool.or_eq_true, hasCoord, hd]
      right
      rcases List.mem_append.1 he with he | he
      · rcases List.mem_append.1 he with he | he
        · rcases List.mem_append.1 he with he | he
          · exact .inl (.inl (.inl (hsome he)))
          · exact .inl (.inl (.inr (hsome he)))
        · exact .inl (.inr (hsome he))
      · exact .inr (hsome he)
  -- the dimensions
  obtain ⟨A, hA⟩ : ∃ A : Dims, A = if x.binned then x.dims.filter (fun p => !contains b.dims p.1) else [] := ⟨_, rfl⟩
  have hAsub : A.Sublist x.dims := by rw [hA]; split; exacts [List.filter_sublist, List.nil_sublist _]
  have hAgood : Good A := ⟨sublist_WF hAsub hx.dims, fun h => hx.valid ((hAsub.map Prod.fst).subset h)⟩
  have hAd : ∀ d ∈ labels A, d ∉ labels b.dims := by
    intro d hd
    rw [hA] at hd
    split at hd
    · obtain ⟨p, hp, rfl⟩ := List.mem_map.1 hd
      exact contains_false.1 (by simpa using (List.mem_filter.1 hp).2)
    · simp [labels] at hd
  have hs : sizesDims x b = .ok (A ++ b.dims) := by
    unfold sizesDims
    rw [← hA]
    exact merge_disjoint_ok hAgood hgood hAd
  have herased : ∀ d ∈ erase, (d, 1) ∈ b.dims := by
    intro d hd
    rw [hdims]
    simp [hd]
  have hsq : ((A ++ b.dims).all fun p => !erase.contains p.1 || p.2 == 1) = true := by
    refine List.all_eq_true.2 fun p hp => ?_
    by_cases he : p.1 ∈ erase
    · have h1 := herased p.1 he
      rcases List.mem_append.1 hp with hp | hp
      · exact absurd (mem_labels h1) (hAd p.1 (mem_labels (x := p.2) hp))
      · have h2 := at?_of_mem hgood.1.1 (show (p.1, p.2) ∈ b.dims from hp)
        rw [at?_of_mem hgood.1.1 h1] at h2
        injection h2 with h2
        simp [← h2]
    · simp [he]
  obtain ⟨D, hD⟩ : ∃ D : Dims, D = (A ++ b.dims).filter fun p => !erase.contains p.1 := ⟨_, rfl⟩
  have hsqz : squeezeDims (A ++ b.dims) erase = .ok D := by unfold squeezeDims; rw [if_pos hsq, hD]
  have hDw : WF D := by
    rw [hD]
    refine sublist_WF List.filter_sublist ⟨?_, fun p hp => ?_⟩
    · rw [labels_append]
      exact List.nodup_append.2 ⟨hAgood.1.1, hgood.1.1, fun y hy z hz hyz => hAd y hy (hyz ▸ hz)⟩
    · rcases List.mem_append.1 hp with hp | hp
      · exact hAgood.1.2 p hp
      · exact hgood.1.2 p hp
  have hkeyin : ∀ c, c ∈ edges ∨ c ∈ groups → dimOf c ∈ (edges ++ groups).map dimOf := fun c hc => List.mem_map.2 ⟨c, List.mem_append.2 hc, rfl⟩
  have hkeyne : ∀ c, c ∈ edges ∨ c ∈ groups → dimOf c ∉ erase := fun c hc h => (List.nodup_append.1 hn).2.2 _ (hkeyin c hc) _ h rfl
  have hsame : ∀ {d : Dim} {m n : Int}, (d, m) ∈ x.dims → (d, n) ∈ x.dims → m = n := by
    intro d m n h1 h2
    have h3 := at?_of_mem hx.dims.1 h1
    rw [at?_of_mem hx.dims.1 h2] at h3
    injection h3 with h3
    exact h3.symm
  have hD1 : ∀ p ∈ x.dims, p.1 ≠ x.bufDim → p.1 ∉ erase → (∀ c, c ∈ edges ∨ c ∈ groups → dimOf c ≠ p.1) → p ∈ D := by
    intro p hp hpb hpe hpk
    have hbin : x.binned = true := by
      rcases hb with h | ⟨n, h⟩
      · exact h
      · rw [h, List.mem_singleton] at hp
        exact absurd (by rw [hp]) hpb
    rw [hD]
    refine List.mem_filter.2 ⟨?_, by simpa using hpe⟩
    by_cases hin : p.1 ∈ labels b.dims
    · refine List.mem_append.2 (.inr ?_)
      obtain ⟨q, hq, hqp⟩ := List.mem_map.1 hin
      have hq' := hq
      rw [hdims, List.mem_append, List.mem_append, List.mem_append] at hq'
      rcases hq' with ((hq' | hq') | hq') | hq'
      · obtain ⟨d, hd, rfl⟩ := List.mem_map.1 hq'
        exact absurd (hqp ▸ hd) hpe
      · obtain ⟨r, hr, rfl⟩ := List.mem_map.1 hq'
        have hr' := handled_sub (List.mem_filter.1 hr).1
        have hg : keyOf groups r.1 = none := keyOf_none.2 fun c hc => by
          have := hpk c (.inr hc); rw [← hqp] at this; exact this
        have he : keyOf edges r.1 = none := keyOf_none.2 fun c hc => by
          have := hpk c (.inl hc); rw [← hqp] at this; exact this
        rw [newLen_eq, hg, he] at hq hqp
        have h1 : r.1 = p.1 := hqp
        have h2 : r.2 = p.2 := hsame (d := p.1) (by rw [← h1]; exact hr') hp
        have h3 : r = p := Prod.ext h1 h2
        rw [h3] at hq
        exact hq
      · obtain ⟨c, hc, rfl⟩ := List.mem_map.1 hq'
        exact absurd hqp (hpk c (.inr (List.mem_filter.1 hc).1))
      · obtain ⟨c, hc, rfl⟩ := List.mem_map.1 hq'
        exact absurd hqp (hpk c (.inl (List.mem_filter.1 hc).1))
    · refine List.mem_append.2 (.inl ?_)
      rw [hA, if_pos hbin]
      exact List.mem_filter.2 ⟨hp, by simpa [contains_false] using hin⟩
  have hD2 : ∀ d ∈ labels D, d ∈ labels x.dims ∨ ∃ c, (c ∈ edges ∨ c ∈ groups) ∧ dimOf c = d := by
    intro d hd
    obtain ⟨q, hq, rfl⟩ := List.mem_map.1 hd
    rw [hD] at hq
    obtain ⟨hq, hqe⟩ := List.mem_filter.1 hq
    rcases List.mem_append.1 hq with hq | hq
    · exact .inl (mem_labels (x := q.2) (hAsub.subset hq))
    · rw [hdims, List.mem_append, List.mem_append, List.mem_append] at hq
      rcases hq with ((hq | hq) | hq) | hq
      · obtain ⟨d, hd', rfl⟩ := List.mem_map.1 hq
        simp [hd'] at hqe
      · obtain ⟨r, hr, rfl⟩ := List.mem_map.1 hq
        exact .inl (mem_labels (x := r.2) (handled_sub (List.mem_filter.1 hr).1))
      · obtain ⟨c, hc, rfl⟩ := List.mem_map.1 hq
        exact .inr ⟨c, .inr (List.mem_filter.1 hc).1, rfl⟩
      · obtain ⟨c, hc, rfl⟩ := List.mem_map.1 hq
        exact .inr ⟨c, .inl (List.mem_filter.1 hc).1, rfl⟩
  -- the extent of the dimension of a key
  have hD3 : ∀ c, (c ∈ groups → (dimOf c, lenOf c) ∈ D) ∧ (c ∈ edges → (dimOf c, lenOf c - 1) ∈ D) := by
    intro c
    have hgk : c ∈ groups → keyOf groups (dimOf c) = some c := keyOf_mem hng1
    have hek : c ∈ edges → keyOf edges (dimOf c) = some c := keyOf_mem hne1
    have hgn : c ∈ edges → keyOf groups (dimOf c) = none := fun h => keyOf_none.2 fun g hg hgc => by
      have h1 := (List.nodup_append.1 hn).1
      rw [List.map_append] at h1
      exact (List.nodup_append.1 h1).2.2 _ (List.mem_map.2 ⟨c, h, rfl⟩) _ (List.mem_map.2 ⟨g, hg, hgc⟩) rfl
    constructor
    · intro hc
      rw [hD]
      refine List.mem_filter.2 ⟨List.mem_append.2 (.inr ?_), by simpa using hkeyne c (.inr hc)⟩
      rw [hdims]
      by_cases hin : dimOf c ∈ labels x.dims
      · obtain ⟨p, hp, hpd⟩ := List.mem_map.1 hin
        have : newLen edges groups p = (dimOf c, lenOf c) := by rw [newLen_eq, hpd, hgk hc]
        refine List.mem_append.2 (.inl (List.mem_append.2 (.inl (List.mem_append.2 (.inr (List.mem_map.2 ⟨p, List.mem_filter.2 ⟨?_, ?_⟩, this⟩))))))
        · exact mem_handled hp (by unfold isKey; rw [hpd, hgk hc]; rfl)
        · rw [hpd]; simpa using hkeyne c (.inr hc)
      · refine List.mem_append.2 (.inl (List.mem_append.2 (.inr (List.mem_map.2 ⟨c, List.mem_filter.2 ⟨hc, ?_⟩, rfl⟩))))
        simpa [contains_false] using hin
    · intro hc
      rw [hD]
      refine List.mem_filter.2 ⟨List.mem_append.2 (.inr ?_), by simpa using hkeyne c (.inl hc)⟩
      rw [hdims]
      by_cases hin : dimOf c ∈ labels x.dims
      · obtain ⟨p, hp, hpd⟩ := List.mem_map.1 hin
        have : newLen edges groups p = (dimOf c, lenOf c - 1) := by rw [newLen_eq, hpd, hgn hc, hek hc]
        refine List.mem_append.2 (.inl (List.mem_append.2 (.inl (List.mem_append.2 (.inr (List.mem_map.2 ⟨p, List.mem_filter.2 ⟨?_, ?_⟩, this⟩))))))
        · exact mem_handled hp (by unfold isKey; rw [hpd, hek hc]; simp)
        · rw [hpd]; simpa using hkeyne c (.inl hc)
      · refine List.mem_append.2 (.inr (List.mem_map.2 ⟨c, List.mem_filter.2 ⟨hc, ?_⟩, rfl⟩))
        simpa [contains_false] using hin
  have hkeyok : ∀ c, c ∈ edges ∨ c ∈ groups → EntryOk D { c with aligned := true } := by
    intro c hc
    obtain ⟨w, nb, l, -⟩ := hkey c hc
    have hcd := (one_dim_at l).2
    refine ⟨w, nb, dimOf c, fun d n hd hne' => ?_, fun n hd => ?_⟩
    · change (d, n) ∈ c.dims at hd
      rw [hcd, List.mem_singleton, Prod.mk.injEq] at hd
      exact absurd hd.1 hne'
    · change (dimOf c, n) ∈ c.dims at hd
      rw [hcd, List.mem_singleton, Prod.mk.injEq] at hd
      rcases hc with hc | hc
      · exact .inr (.inl ⟨_, (hD3 c).2 hc, by omega⟩)
      · exact .inl (hd.2 ▸ (hD3 c).1 hc)
  have hbufok : ∀ p ∈ x.bufCoords ++ x.bufMasks ++ x.bufAttrs, contains p.2.dims x.bufDim = false → EntryOk D p.2 := by
    intro p hp hc
    rcases hbuf p hp with h | ⟨h1, h2, h3⟩
    · exact absurd h (contains_false.1 hc)
    · exact ⟨h1, h2, 0, by rw [h3]; simp, by rw [h3]; simp⟩
  have hgone : ∀ {v : Entry}, rebinned (erase ++ (b.keys .bin ++ b.keys .group).map dimOf) x.bufDim v = false → ¬Gone edges groups erase x.bufDim v := by
    intro v h hg
    rw [(gone_iff hx.dims.1 hx.edges hx.groups hbd).2 hg] at h
    cases h
  have hxok : ∀ p ∈ x.coords ++ x.masks ++ x.attrs, rebinned (erase ++ (b.keys .bin ++ b.keys .group).map dimOf) x.bufDim p.2 = false → EntryOk D p.2 :=
    fun p hp h => kept_fits hx.dims hD1 hD2 (hgone h) (hfit p hp)
  -- the dictionaries
  have hmc := ofItems_exists (ro := false) hDw (insertCoords (erase ++ (b.keys .bin ++ b.keys .group).map dimOf) x.bufDim x.coords
      (insertKeys (b.keys .bin ++ b.keys .group) (extractUnbinned x.bufDim (dropGrouped x.bufCoords groups))))
    (insertCoords_nodup (insertKeys_nodup (filter_keys_nodup (dropGrouped_nodup groups _ hx.bufCoords))))
    (fun p hp => by
      rcases mem_insertCoords hp with hp | ⟨hp, hr⟩
      · rcases mem_insertKeys hp with hp | ⟨c, hc, rfl⟩
        · obtain ⟨h1, h2⟩ := List.mem_filter.1 hp
          exact hbufok p (by simp [mem_dropGrouped h1]) (by simpa using h2)
        · refine hkeyok c ?_
          rcases List.mem_append.1 hc with hc | hc
          · exact .inl ((mem_keys_bin hx.dims.1 hx.edges hx.groups hbd c).1 hc).1
          · exact .inr ((mem_keys_group hx.dims.1 hx.edges hx.groups hbd c).1 hc)
      · exact hxok p (by simp [hp]) hr)
  have hmm := ofItems_exists (ro := false) hDw (insertMasks (erase ++ (b.keys .bin ++ b.keys .group).map dimOf) x.bufDim x.masks (extractUnbinned x.bufDim x.bufMasks))
    (insertMasks_nodup (filter_keys_nodup hx.bufMasks))
    (fun p hp => by
      rcases mem_insertMasks hp with hp | ⟨hp, hr⟩
      · obtain ⟨h1, h2⟩ := List.mem_filter.1 hp
        exact hbufok p (by simp [h1]) (by simpa using h2)
      · exact hxok p (by simp [hp]) hr)
  have hma := ofItems_exists (ro := false) hDw (insertAttrs (erase ++ (b.keys .bin ++ b.keys .group).map dimOf) x.bufDim
        (insertCoords (erase ++ (b.keys .bin ++ b.keys .group).map dimOf) x.bufDim x.coords
          (insertKeys (b.keys .bin ++ b.keys .group) (extractUnbinned x.bufDim (dropGrouped x.bufCoords groups))))
        x.attrs (extractUnbinned x.bufDim x.bufAttrs))
    (insertAttrs_nodup (filter_keys_nodup hx.bufAttrs))
    (fun p hp => by
      rcases mem_insertAttrs hp with hp | ⟨hp, hr⟩
      · obtain ⟨h1, h2⟩ := List.mem_filter.1 hp
        exact hbufok p (by simp [h1]) (by simpa using h2)
      · exact hxok p (by simp [hp]) hr)
  unfold bin
  simp only [hval, hbd, hall, if_true, addMetadata, hs, hsqz]
  exact ⟨_, by rw [hmc, hmm, hma]⟩

/-- Binned data of shape (1: 2, 2: 3) with masks along both of its dimensions. -/
private def c77x : Input where
  binned := true
  dims := [(1, 2), (2, 3)]
  bufDim := 9
  bufCoords := [(1, c77Var [(9, 10)] 1), (3, c77Var [(9, 10)] 2), (4, c77Var [] 3)]
  bufMasks := [(6, c77Var [(9, 10)] 4), (7, c77Var [] 5)]
  bufAttrs := [(1, c77Var [] 12)]
  coords := [(1, c77Var [(1, 3)] 6), (2, c77Var [(2, 3)] 7), (5, c77Var [(1, 2), (2, 3)] 8)]
  masks := [(6, c77Var [(1, 2)] 9), (8, c77Var [(2, 3)] 10)]
  attrs := [(3, c77Var [(2, 3)] 11)]

private theorem c77x_args : C77Args c77x [c77Var [(1, 5)] 20 false] [c77Var [(3, 4)] 21] :=
  ⟨by simp [c77x, WF, labels], by simp [c77x, labels, Dim.invalid], by simp [c77Var, labels, Entry.dims], by simp [c77Var, labels, Entry.dims], by simp [Keys, c77x], by simp [Keys, c77x],
    by simp [Keys, c77x], by simp [Keys, c77x], by simp [Keys, c77x], by simp [Keys, c77x]⟩

/-- New bins along dimension 1 and four groups along dimension 3. -/
private theorem c77x_ok : bin c77x [c77Var [(1, 5)] 20 false] [c77Var [(3, 4)] 21] [] = .ok
    { dims := [(1, 4), (2, 3), (3, 4)]
      coords := [(4, c77Var [] 3), (1, c77Var [(1, 5)] 20), (3, c77Var [(3, 4)] 21), (2, c77Var [(2, 3)] 7)]
      masks := [(7, c77Var [] 5), (8, c77Var [(2, 3)] 10)]
      attrs := [(1, c77Var [] 12)]
      hidden := [(6, c77Var [(1, 2)] 9), (8, c77Var [(2, 3)] 10)] } := by rfl

example := C77_dims _ _ _ _ _ c77x_args rfl c77x_ok

example := C77_coords _ _ _ _ _ c77x_args c77x_ok 1

example := C77_masks _ _ _ _ _ c77x_args c77x_ok 8

example := C77_attrs _ _ _ _ _ c77x_args c77x_ok 1

example := C77_masks_partial _ _ _ _ _ c77x_args rfl c77x_ok 6 (c77Var [(1, 2)] 9) (by simp [c77x]) (by simp [BinMeta.DependsOn, c77Var, c77x, labels, Entry.dims])

private theorem c77Var_wf {dims : Dims} {obj : Nat} {al : Bool} (h : WF dims) : (c77Var dims obj al).view.WF := by
  simp [View.WF, c77Var, h, labels]
  rintro s _ _ _ rfl
  decide

example := C77_requires _ _ _ _ _ c77x_args c77x_ok

example := C77_fits _ _ _ _ _ c77x_args (by
    intro e he
    simp [c77x] at he
    rcases he with h | h | h | h | h | h | h | h | h | h | h | h | h | h <;> subst h <;> exact c77Var_wf (by simp [WF, labels])) c77x_ok 2 (c77Var [(2, 3)] 7) (by simp)

/-- A dimension of length 1 that is erased. -/
private def c77e : Input where
  binned := true
  dims := [(1, 1), (2, 3)]
  bufDim := 9
  bufCoords := [(3, c77Var [(9, 10)] 2), (4, c77Var [] 3)]
  bufMasks := []
  bufAttrs := []
  coords := [(1, c77Var [(1, 2)] 6), (2, c77Var [(2, 4)] 7)]
  masks := [(6, c77Var [(1, 1)] 9), (8, c77Var [(2, 3)] 10)]
  attrs := []

private theorem c77e_args : C77Args c77e [c77Var [(3, 5)] 20] [] :=
  ⟨by simp [c77e, WF, labels], by simp [c77e, labels, Dim.invalid], by simp [c77Var, labels, Entry.dims], by simp, by simp [Keys, c77e], by simp [Keys, c77e],
    by simp [Keys, c77e], by simp [Keys, c77e], by simp [Keys, c77e], by simp [Keys, c77e]⟩

private theorem c77e_entry {d : Dim} {m n : Int} {obj : Nat} (hm : 0 ≤ m) (h : (d, n) ∈ c77e.dims) (hn : m = n ∨ m = n + 1) : EntryOk c77e.dims (c77Var [(d, m)] obj) := by
  refine ⟨c77Var_wf (by simp [WF, labels, hm]), rfl, d, fun e k h1 h2 => ?_, fun k h1 => ?_⟩
  · simp only [Entry.dims, c77Var, List.mem_singleton, Prod.mk.injEq] at h1
    exact absurd h1.1 h2
  · simp only [Entry.dims, c77Var, List.mem_singleton, Prod.mk.injEq, true_and] at h1
    subst h1
    rcases hn with rfl | rfl
    · exact .inl h
    · exact .inr (.inl ⟨n, h, rfl⟩)

example := C77_succeeds c77e [c77Var [(3, 5)] 20] [] [1] c77e_args (.inl rfl)
  (by
    rintro c (h | h)
    · rw [List.mem_singleton] at h
      subst h
      exact ⟨c77Var_wf (by simp [WF, labels]), rfl, rfl, by decide⟩
    · cases h) (.inl (by simp)) (by simp [lenOf, c77Var, Entry.dims]) (by decide) (by decide)
  (by
    rintro c (h | h)
    · rw [List.mem_singleton] at h
      subst h
      exact ⟨c77Var [(9, 10)] 2, by simp [c77e, dimOf, Dims.inner, c77Var, Entry.dims]⟩
    · cases h) (by simp [c77e, c77Var, Entry.dims])
  (by
    intro p hp
    simp only [c77e, List.mem_append, List.mem_cons, List.not_mem_nil, or_false] at hp
    rcases hp with (rfl | rfl) | (rfl | rfl)
    · exact c77e_entry (n := 1) (by decide) (by simp [c77e]) (.inr rfl)
    · exact c77e_entry (n := 3) (by decide) (by simp [c77e]) (.inr rfl)
    · exact c77e_entry (n := 1) (by decide) (by simp [c77e]) (.inl rfl)
    · exact c77e_entry (n := 3) (by decide) (by simp [c77e]) (.inl rfl))
  (by
    intro p hp
    simp only [c77e, List.mem_append, List.mem_cons, List.not_mem_nil, or_false] at hp
    rcases hp with rfl | rfl
    · exact .inl (by simp [BinMeta.DependsOn, c77e, c77Var, labels, Entry.dims])
    · exact .inr ⟨c77Var_wf (by simp [WF, labels]), rfl, rfl⟩)

/-- What becomes of it. -/
example : bin c77e [c77Var [(3, 5)] 20] [] [1] = .ok ⟨[(2, 3), (3, 4)], [(4, c77Var [] 3), (3, c77Var [(3, 5)] 20), (2, c77Var [(2, 4)] 7)], [(8, c77Var [(2, 3)] 10)], [],
    [(6, c77Var [(1, 1)] 9)]⟩ := rfl

/-- A table. -/
private def c77t : Input where
  binned := false
  dims := [(9, 10)]
  bufDim := 9
  bufCoords := [(9, c77Var [(9, 10)] 1), (3, c77Var [(9, 10)] 2)]
  bufMasks := []
  bufAttrs := []
  coords := [(9, c77Var [(9, 10)] 1), (3, c77Var [(9, 10)] 2)]
  masks := []
  attrs := []

example := C77_dims_table c77t [c77Var [(3, 5)] 20, c77Var [(9, 3)] 21] [] [] ⟨[(9, 2), (3, 4)], [(9, c77Var [(9, 3)] 21), (3, c77Var [(3, 5)] 20)], [], [], []⟩ 9 10
  ⟨by simp [c77t, WF, labels], by simp [c77t, labels, Dim.invalid], by simp [c77Var, labels, Entry.dims], by simp, by simp [Keys, c77t], by simp [Keys, c77t],
    by simp [Keys, c77t], by simp [Keys, c77t], by simp [Keys, c77t], by simp [Keys, c77t]⟩ rfl rfl rfl

example := C77_hidden _ _ _ _ _ c77x_args rfl c77x_ok 8 (c77Var [(2, 3)] 10) (by simp)

/-- **C77** violated: the dimension of the events has the name of a dimension of the array, as it does if a table was binned along its own dimension. If a new dimension is added,
masks and coords along the unchanged dimension are lost, and masks without having been applied. -/
theorem C77_wrong_mask_lost :
    ∃ (x : Input) (edges : List Entry) (out : Output), bin x edges [] [] = .ok out ∧ x.dims = [(1, 2)] ∧ out.dims = [(1, 2), (2, 3)] ∧
      (7, c77Var [(1, 2)] 3) ∈ x.masks ∧ (1, c77Var [(1, 3)] 2) ∈ x.coords ∧
      out.masks = [] ∧ out.hidden = [] ∧ lookupEntry out.coords 1 = none :=
  ⟨⟨true, [(1, 2)], 1, [(1, c77Var [(1, 10)] 0), (2, c77Var [(1, 10)] 1)], [], [], [(1, c77Var [(1, 3)] 2)], [(7, c77Var [(1, 2)] 3)], []⟩, [c77Var [(2, 4)] 5],
    ⟨[(1, 2), (2, 3)], [(2, c77Var [(2, 4)] 5)], [], [], []⟩, rfl, rfl, rfl, by simp, by simp, rfl, rfl, rfl⟩

/-- **C77** violated: a mask along an unchanged dimension to the right of one that gets new bins is applied, so that the events are lost, and kept. -/
theorem C77_wrong_mask_applied_and_kept :
    ∃ (x : Input) (edges : List Entry) (out : Output) (e : Entry), bin x edges [] [] = .ok out ∧ x.dims = [(1, 2), (2, 3)] ∧ edges = [c77Var [(1, 5)] 5] ∧
      (7, e) ∈ x.masks ∧ labels e.dims = [2] ∧ (7, e) ∈ out.masks ∧ (7, e) ∈ out.hidden :=
  ⟨⟨true, [(1, 2), (2, 3)], 9, [(1, c77Var [(9, 10)] 0)], [], [], [], [(7, c77Var [(2, 3)] 3)], []⟩, [c77Var [(1, 5)] 5],
    ⟨[(1, 4), (2, 3)], [(1, c77Var [(1, 5)] 5)], [(7, c77Var [(2, 3)] 3)], [], [(7, c77Var [(2, 3)] 3)]⟩, c77Var [(2, 3)] 3, rfl, rfl, rfl, by simp, rfl, by simp, by simp⟩

/-- **C77** violated: edges and groups for the same dimension are an error if the dimension is new, but if the data has it the edges are ignored. -/
theorem C77_wrong_edges_ignored :
    ∃ (x y : Input) (edges groups : List Entry) (out : Output) (err : Err), edges = [c77Var [(1, 5)] 5] ∧ groups = [c77Var [(1, 7)] 6] ∧
      bin y edges groups [] = .error err ∧ bin x edges groups [] = .ok out ∧ out.dims = [(1, 7)] ∧ lookupEntry out.coords 1 = some (c77Var [(1, 7)] 6) :=
  ⟨⟨true, [(1, 2)], 9, [(1, c77Var [(9, 10)] 0)], [], [], [], [], []⟩, ⟨true, [(2, 2)], 9, [(1, c77Var [(9, 10)] 0)], [], [], [], [], []⟩, _, _,
    ⟨[(1, 7)], [(1, c77Var [(1, 7)] 6)], [], [], []⟩, .dimension, rfl, rfl, rfl, rfl, rfl, rfl⟩

/-- **C77** violated: the result has an attr and a coord of the same name, if the attr is one of the events. -/
theorem C77_wrong_attr_and_coord :
    ∃ (x : Input) (edges groups : List Entry) (out : Output) (e c : Entry), bin x edges groups [] = .ok out ∧ lookupEntry out.attrs 1 = some e ∧ lookupEntry out.coords 1 = some c :=
  ⟨c77x, _, _, _, c77Var [] 12, c77Var [(1, 5)] 20, c77x_ok, rfl, rfl⟩

end Scipp.Props
