import Verif.Lemmas.SizedDict2
import Verif.Lemmas.Concat
import Verif.Lemmas.Dataset
/-!
C35 (coords and masks fit the data), C44 (bin edges under slicing), C36 (merging coords).
-/
namespace Scipp.Props
open Scipp Sizes

/-! ## C35 -/

/-- **C35** (acceptance): inserting a variable into a writable dictionary succeeds exactly if it is not binned and its
dimensions fit; nothing else of the dictionary changes. -/
theorem C35_set_iff (d : SizedDict) (key : Dim) (e : Entry) (hd : d.Ok) (hw : e.view.WF) (hr : d.readonly = false)
    (hnew : ∀ cur, (key, cur) ∈ d.items → ¬ (cur.obj = e.obj ∧ cur.view.dims = e.view.dims ∧ cur.view.strides = e.view.strides ∧
      cur.view.offset = e.view.offset)) :
    ((∃ d', d.set key e = .ok d') ↔ e.binned = false ∧ Fits d.sizes e.dims) ∧
    ∀ d', d.set key e = .ok d' → d'.sizes = d.sizes ∧
      ∀ k, lookupEntry d'.items k = if k = key then some e else lookupEntry d.items k := by
  have hset : d.set key e = d.insert key e := by
    unfold SizedDict.set
    cases hl : lookupEntry d.items key with
    | none => rfl
    | some cur =>
      have h := hnew cur (lookup_mem hl)
      simp only
      rw [if_neg]
      intro h1
      simp only [Entry.isSame, Bool.and_eq_true, beq_iff_eq, decide_eq_true_eq] at h1
      exact h ⟨h1.1.1.1, h1.1.1.2, h1.1.2, h1.2⟩
  rw [hset]
  refine ⟨insert_iff hd.1 hr hw, ?_⟩
  intro d' h
  obtain ⟨_, rfl⟩ := insert_ok h
  exact ⟨rfl, fun k => lookup_insert _ _ _ _⟩

/-- **C35** (acceptance): setting an item to the variable it refers to already has no effect and is even allowed if the dictionary is
read-only. Anything else is an error in this case. -/
theorem C35_set_readonly (d : SizedDict) (key : Dim) (e : Entry) (hn : (d.items.map Prod.fst).Nodup) (hr : d.readonly = true) :
    ((∃ cur, (key, cur) ∈ d.items ∧ cur.obj = e.obj ∧ cur.view.dims = e.view.dims ∧ cur.view.strides = e.view.strides ∧
      cur.view.offset = e.view.offset) → d.set key e = .ok d) ∧
    (¬ (∃ cur, (key, cur) ∈ d.items ∧ cur.obj = e.obj ∧ cur.view.dims = e.view.dims ∧ cur.view.strides = e.view.strides ∧
      cur.view.offset = e.view.offset) → ∃ err, d.set key e = .error err) := by
  have hins : ∃ err, d.insert key e = .error err := by
    cases h : d.insert key e with
    | error err => exact ⟨err, rfl⟩
    | ok d' =>
      exfalso
      have := (insert_ok h).1
      simp_all
  constructor
  · rintro ⟨cur, hc, h1, h2, h3, h4⟩
    unfold SizedDict.set
    rw [lookup_of_mem hn hc]
    simp [Entry.isSame, h1, h2, h3, h4]
  · intro h
    unfold SizedDict.set
    cases hl : lookupEntry d.items key with
    | none => exact hins
    | some cur =>
      simp only
      rw [if_neg]
      · exact hins
      · intro h1
        simp only [Entry.isSame, Bool.and_eq_true, beq_iff_eq, decide_eq_true_eq] at h1
        exact h ⟨cur, lookup_mem hl, h1.1.1.1, h1.1.1.2, h1.1.2, h1.2⟩

/-- **C35** (one operation). -/
theorem C35_operation (d d' : SizedDict) (op : SizedDictOp) (hd : d.Ok) (hv : op.Valid) (hk : op.KeepsSizes)
    (h : op.apply d = .ok d') : d'.Ok := by
  cases op with
  | set k e => exact (set_Ok hd hv h).1
  | erase k => exact erase_Ok hd h
  | setAligned k a => exact (setAligned_Ok hd h).1
  | slice p => exact slice_Ok hd hv h
  | sliceCoords p => exact sliceCoords_Ok hd hv h
  | renameDims names => exact rename_Ok hd h
  | asConst => exact asConst_Ok hd h
  | copy =>
    simp only [SizedDictOp.apply, Except.ok.injEq] at h
    subst h
    exact hd
  | mergeFrom o => exact mergeFrom_Ok hd hv h
  | setSizes s => exact absurd hk (by simp [SizedDictOp.KeepsSizes])

/-- **C35** (partial: without `setSizes`, see `C35_set_sizes_partial` and `C35_wrong_for_set_sizes`): after any sequence of
set, erase, set_aligned, slice, slice_coords, rename_dims, as_const, copy and merge_from, whether the individual
operations succeed or not, every entry fits the sizes of the dictionary. -/
theorem C35_history_partial (ops : List SizedDictOp) (d : SizedDict) (hd : d.Ok)
    (hv : ∀ op ∈ ops, op.Valid ∧ op.KeepsSizes) : (SizedDictOp.run d ops).Ok := by
  induction ops generalizing d with
  | nil => exact hd
  | cons op ops ih =>
    have hrest := fun o ho => hv o (List.mem_cons_of_mem op ho)
    simp only [SizedDictOp.run]
    split
    · rename_i d1 h1
      exact ih d1 (C35_operation d d1 op hd (hv op (by simp)).1 (hv op (by simp)).2 h1) hrest
    · exact ih d hd hrest

/-- **C35** (construction): a dictionary made by a constructor is well-formed, whatever the items are. -/
theorem C35_construct (sizes : Sizes) (items : List (Dim × Entry)) (ro : Bool) (d : SizedDict) (hs : WF sizes)
    (hi : ∀ p ∈ items, p.2.view.WF) (h : SizedDict.ofItems sizes items ro = .ok d) : d.Ok ∧ d.sizes = sizes :=
  ofItems_Ok hs hi h

private theorem mergeSizesInto_WF : ∀ (dims : Dims) (t s : Sizes), WF t → WF dims → mergeSizesInto t dims = .ok s → WF s
  | [], t, s, ht, _, h => by simp only [mergeSizesInto, Except.ok.injEq] at h; exact h ▸ ht
  | (d, b) :: rest, t, s, ht, hd, h => by
    have hrest : WF rest := sublist_WF (List.sublist_cons_self _ _) hd
    simp only [mergeSizesInto] at h
    split at h
    · split at h
      · simp at h
      · split at h
        · split at h
          · simp at h
          · rename_i t1 h1
            exact mergeSizesInto_WF rest t1 s (resize_WF h1 ht) hrest h
        · split at h
          · exact mergeSizesInto_WF rest t s ht hrest h
          · simp at h
    · split at h
      · simp at h
      · rename_i t1 h1
        exact mergeSizesInto_WF rest t1 s (set_WF h1 ht) hrest h

/-- **C35** (construction with automatic sizes): the same if the sizes are inferred from the items. -/
theorem C35_construct_auto (items : List (Dim × Entry)) (ro : Bool) (d : SizedDict)
    (hi : ∀ p ∈ items, p.2.view.WF) (h : SizedDict.ofItemsAuto items ro = .ok d) : d.Ok := by
  have hfold : ∀ (l : List (Dim × Entry)) (t s : Sizes), WF t → (∀ p ∈ l, p.2.view.WF) →
      l.foldlM mergeItemSizes t = .ok s → WF s := by
    intro l
    induction l with
    | nil =>
      intro t s ht _ h
      simp only [List.foldlM_nil, pure, Except.pure, Except.ok.injEq] at h
      exact h ▸ ht
    | cons p l ih =>
      intro t s ht hl h
      rw [List.foldlM_cons] at h
      cases hp : mergeItemSizes t p with
      | error e => rw [hp] at h; simp [bind, Except.bind] at h
      | ok t1 =>
        rw [hp] at h
        exact ih t1 s (mergeSizesInto_WF _ _ _ ht (hl p (by simp)).1 hp) (fun q hq => hl q (by simp [hq])) h
  unfold SizedDict.ofItemsAuto at h
  cases hs : items.foldlM mergeItemSizes [] with
  | error e => rw [hs] at h; simp at h
  | ok sizes =>
    rw [hs] at h
    exact (ofItems_Ok (hfold items [] sizes WF.nil hi hs) hi h).1

/-- Smallest extent of a dimension among those listed. -/
def IsSmallest (L : Dims) (d : Dim) (n : Int) : Prop := (d, n) ∈ L ∧ ∀ m, (d, m) ∈ L → n ≤ m

private theorem IsSmallest.other {L : Dims} {d e : Dim} {n b : Int} (h : e ≠ d) : IsSmallest (L ++ [(d, b)]) e n ↔ IsSmallest L e n := by
  simp [IsSmallest, h]

private theorem merge_step {t : Sizes} {d : Dim} {b : Int} {L : Dims} (ht : WF t)
    (hb : 0 ≤ b) (hi : ∀ e n, (e, n) ∈ t ↔ IsSmallest L e n) (rest : Dims) :
    (∀ s, mergeSizesInto t ((d, b) :: rest) = .ok s → ∃ t', WF t' ∧ mergeSizesInto t' rest = .ok s ∧
      ∀ e n, (e, n) ∈ t' ↔ IsSmallest (L ++ [(d, b)]) e n) ∧
    (d ≠ Dim.invalid → (∀ m, (d, m) ∈ L → m ≤ b + 1 ∧ b ≤ m + 1) → ∃ t', WF t' ∧
      mergeSizesInto t ((d, b) :: rest) = mergeSizesInto t' rest ∧ ∀ e n, (e, n) ∈ t' ↔ IsSmallest (L ++ [(d, b)]) e n) := by
  simp only [mergeSizesInto]
  by_cases hc : d ∈ labels t
  · obtain ⟨a, ha⟩ := at?_ok_of_mem_labels hc
    have hm := at?_ok_mem ha
    have hmin := (hi d a).1 hm
    rw [contains_iff.2 hc]
    simp only [if_true, ha]
    by_cases h1 : a = b + 1
    · obtain ⟨t', ht'⟩ := Concat.resize_exists hc hb
      obtain ⟨r1, r2, r3⟩ := Concat.resize_mem ht.1 ht'
      have hw' := resize_WF ht' ht
      have hinv : ∀ e n, (e, n) ∈ t' ↔ IsSmallest (L ++ [(d, b)]) e n := by
        intro e n
        by_cases he : e = d
        · subst he
          constructor
          · intro h
            have : n = b := by
              have h1 := at?_of_mem hw'.1 h; have h2 := at?_of_mem hw'.1 r1; rw [h1] at h2; exact Except.ok.inj h2
            subst this
            refine ⟨by simp, fun m hm => ?_⟩
            simp only [List.mem_append, List.mem_singleton, Prod.mk.injEq, true_and] at hm
            rcases hm with hm | rfl
            · have := hmin.2 m hm; omega
            · omega
          · rintro ⟨g1, g2⟩
            have : n = b := by
              have hle := g2 b (by simp)
              simp only [List.mem_append, List.mem_singleton, Prod.mk.injEq, true_and] at g1
              rcases g1 with g1 | rfl
              · have := hmin.2 n g1; omega
              · rfl
            exact this ▸ r1
        · rw [r3 (e, n) he, IsSmallest.other he]; exact hi e n
      simp only [h1, if_true, ht']
      exact ⟨fun s h => ⟨t', hw', h, hinv⟩, fun _ _ => ⟨t', hw', rfl, hinv⟩⟩
    · simp only [h1, if_false]
      have hinv : a ≤ b → ∀ e n, (e, n) ∈ t ↔ IsSmallest (L ++ [(d, b)]) e n := by
        intro hab e n
        by_cases he : e = d
        · subst he
          rw [hi]
          constructor
          · rintro ⟨g1, g2⟩
            refine ⟨by simp [g1], fun m hm => ?_⟩
            simp only [List.mem_append, List.mem_singleton, Prod.mk.injEq, true_and] at hm
            rcases hm with hm | rfl
            · exact g2 m hm
            · have := g2 a hmin.1; omega
          · rintro ⟨g1, g2⟩
            refine ⟨?_, fun m hm => g2 m (by simp [hm])⟩
            simp only [List.mem_append, List.mem_singleton, Prod.mk.injEq, true_and] at g1
            rcases g1 with g1 | rfl
            · exact g1
            · have h2 := g2 a (by simp [hmin.1])
              have : n = a := by omega
              exact this ▸ hmin.1
        · rw [IsSmallest.other he]; exact hi e n
      by_cases h2 : a + 1 = b ∨ a = b
      · simp only [h2, if_true]
        exact ⟨fun s h => ⟨t, ht, h, hinv (by omega)⟩, fun _ _ => ⟨t, ht, rfl, hinv (by omega)⟩⟩
      · simp only [h2, if_false]
        refine ⟨fun s h => by simp at h, fun _ hL => ?_⟩
        have := hL a hmin.1
        omega
  · rw [contains_false.2 hc]
    simp only [Bool.false_eq_true, if_false]
    have hinv : ∀ e n, (e, n) ∈ t ++ [(d, b)] ↔ IsSmallest (L ++ [(d, b)]) e n := by
      intro e n
      by_cases he : e = d
      · subst he
        have hno : ∀ m, (e, m) ∉ L := by
          intro m hm
          -- a dimension that occurs has a smallest extent
          have hex : ∀ (L : Dims) (m : Int), (e, m) ∈ L → ∃ k, IsSmallest L e k := by
            intro L
            induction L with
            | nil => intro m h; simp at h
            | cons q L ih =>
              intro m h
              by_cases hq : ∃ k, (e, k) ∈ L
              · obtain ⟨k, hk⟩ := hq
                obtain ⟨k, g1, g2⟩ := ih k hk
                obtain ⟨q1, q2⟩ := q
                by_cases hqe : q1 = e ∧ q2 < k
                · refine ⟨q2, by simp [hqe.1], fun x hx => ?_⟩
                  rcases List.mem_cons.1 hx with hx | hx
                  · simp only [Prod.mk.injEq] at hx; omega
                  · have := g2 x hx; omega
                · refine ⟨k, by simp [g1], fun x hx => ?_⟩
                  rcases List.mem_cons.1 hx with hx | hx
                  · simp only [Prod.mk.injEq] at hx
                    have : ¬ q2 < k := fun h => hqe ⟨hx.1.symm, h⟩
                    omega
                  · exact g2 x hx
              · refine ⟨m, h, fun x hx => ?_⟩
                rcases List.mem_cons.1 h with h | h
                · rcases List.mem_cons.1 hx with hx | hx
                  · rw [← h] at hx; simp only [Prod.mk.injEq] at hx; omega
                  · exact absurd ⟨x, hx⟩ hq
                · exact absurd ⟨m, h⟩ hq
          obtain ⟨k, hk⟩ := hex L m hm
          exact hc (mem_labels ((hi e k).2 hk))
        have hnt : (e, n) ∉ t := fun h => hc (mem_labels h)
        simp only [List.mem_append, hnt, List.mem_singleton, Prod.mk.injEq, true_and, false_or, IsSmallest, hno]
        constructor
        · rintro rfl; exact ⟨rfl, fun m hm => by omega⟩
        · exact fun h => h.1
      · rw [IsSmallest.other he, ← hi]; simp [he]
    constructor
    · intro s h
      cases hst : Sizes.set t d b with
      | error e => rw [hst] at h; simp at h
      | ok t' =>
        rw [hst] at h
        have hw' := set_WF hst ht
        obtain ⟨_, _, h3⟩ := set_ok hst
        rcases h3 with h3 | h3
        · exact absurd (mem_labels (at?_ok_mem h3.1)) hc
        · refine ⟨t', hw', h, ?_⟩
          rw [h3.2]; exact hinv
    · intro hd _
      have hst := set_eq_append (s := t) hd hb hc
      rw [hst]
      exact ⟨_, set_WF hst ht, rfl, hinv⟩

private theorem merge_all (L : Dims) (hL : ∀ p ∈ L, 0 ≤ p.2) : ∀ (t : Sizes) (done : Dims), WF t →
    (∀ e n, (e, n) ∈ t ↔ IsSmallest done e n) →
    (∀ s, mergeSizesInto t L = .ok s → ∀ e n, (e, n) ∈ s ↔ IsSmallest (done ++ L) e n) ∧
    ((∀ p ∈ L, p.1 ≠ Dim.invalid) → (∀ e m k, (e, m) ∈ done ++ L → (e, k) ∈ done ++ L → m ≤ k + 1) →
      ∃ s, mergeSizesInto t L = .ok s ∧ WF s ∧ ∀ e n, (e, n) ∈ s ↔ IsSmallest (done ++ L) e n) := by
  induction L with
  | nil =>
    intro t done ht hi
    simp only [mergeSizesInto, List.append_nil]
    exact ⟨fun s h => by injection h with h; exact h ▸ hi, fun _ _ => ⟨t, rfl, ht, hi⟩⟩
  | cons p L ih =>
    intro t done ht hi
    obtain ⟨d, b⟩ := p
    have e0 : done ++ (d, b) :: L = (done ++ [(d, b)]) ++ L := by simp
    obtain ⟨s1, s2⟩ := merge_step (d := d) ht (hL (d, b) (by simp)) hi L
    have hL' : ∀ p ∈ L, 0 ≤ p.2 := fun p hp => hL p (by simp [hp])
    constructor
    · intro s h
      obtain ⟨t', hw', ht', hi'⟩ := s1 s h
      rw [e0]
      exact (ih hL' t' _ hw' hi').1 s ht'
    · intro hv hclose
      obtain ⟨t', hw', ht', hi'⟩ := s2 (hv (d, b) (by simp)) (fun m hm =>
        ⟨hclose d m b (by simp [hm]) (by simp), hclose d b m (by simp) (by simp [hm])⟩)
      rw [e0] at hclose ⊢
      obtain ⟨s, g1, g2, g3⟩ := (ih hL' t' _ hw' hi').2 (fun p hp => hv p (by simp [hp])) hclose
      exact ⟨s, by rw [ht', g1], g2, g3⟩

private theorem mergeSizesInto_append (L M : Dims) : ∀ t : Sizes, mergeSizesInto t (L ++ M) =
    (match mergeSizesInto t L with | .error e => .error e | .ok t => mergeSizesInto t M) := by
  induction L with
  | nil => intro t; rfl
  | cons p L ih =>
    intro t
    obtain ⟨d, b⟩ := p
    simp only [List.cons_append, mergeSizesInto]
    split
    · cases Sizes.at? t d with
      | error e => rfl
      | ok a =>
        simp only
        split
        · cases Sizes.resize t d b with
          | error e => rfl
          | ok t' => simp only; exact ih t'
        · split
          · exact ih t
          · rfl
    · cases Sizes.set t d b with
      | error e => rfl
      | ok t' => simp only; exact ih t'

private theorem mergeItems_eq (items : List (Dim × Entry)) : ∀ t : Sizes,
    items.foldlM mergeItemSizes t = mergeSizesInto t (items.flatMap fun p => p.2.dims) := by
  induction items with
  | nil => intro t; rfl
  | cons p items ih =>
    intro t
    rw [List.foldlM_cons, List.flatMap_cons, mergeSizesInto_append]
    simp only [mergeItemSizes, bind, Except.bind]
    cases mergeSizesInto t p.2.dims with
    | error e => rfl
    | ok t' => simp only; exact ih t'

/-- All dimensions of all items. -/
def allDims (items : List (Dim × Entry)) : Dims := items.flatMap fun p => p.2.dims

/-- **C35** (inferred sizes): sizes inferred from items have the dimensions that occur in items, each with the smallest
extent it has in any of them. -/
theorem C35_auto_sizes (items : List (Dim × Entry)) (ro : Bool) (d : SizedDict)
    (hi : ∀ p ∈ items, p.2.view.WF) (h : SizedDict.ofItemsAuto items ro = .ok d) (e : Dim) (n : Int) :
    (e, n) ∈ d.sizes ↔ IsSmallest (allDims items) e n := by
  have hpos : ∀ p ∈ allDims items, 0 ≤ p.2 := by
    intro p hp
    obtain ⟨q, hq, hp⟩ := List.mem_flatMap.1 hp
    exact (hi q hq).1.2 p hp
  unfold SizedDict.ofItemsAuto at h
  cases hs : items.foldlM mergeItemSizes [] with
  | error e => rw [hs] at h; simp at h
  | ok sizes =>
    rw [hs] at h
    rw [mergeItems_eq] at hs
    have hm := (merge_all _ hpos [] [] WF.nil (by simp [IsSmallest])).1 sizes hs
    have hsz : d.sizes = sizes := by
      have hfold : ∀ (l : List (Dim × Entry)) (t r : SizedDict), l.foldlM SizedDict.setItem t = .ok r → r.sizes = t.sizes := by
        intro l
        induction l with
        | nil => intro t r h; simp only [List.foldlM_nil, pure, Except.pure, Except.ok.injEq] at h; rw [h]
        | cons p l ih =>
          intro t r h
          rw [List.foldlM_cons] at h
          cases hp : SizedDict.setItem t p with
          | error e => rw [hp] at h; simp [bind, Except.bind] at h
          | ok t1 =>
            rw [hp] at h
            rw [ih t1 r h]
            exact (set_flag hp).1
      unfold SizedDict.ofItems at h
      simp only at h
      split at h
      · simp at h
      · rename_i r hr
        injection h with h
        rw [← h]
        exact hfold items ⟨sizes, [], false⟩ r hr
    rw [hsz]
    simpa using hm e n

/-- **C35** (inferred sizes, accepted): sizes can be inferred if no two extents of a dimension differ by more than one,
in whatever order items are listed. -/
theorem C35_auto_accepted (items : List (Dim × Entry)) (ro : Bool) (hi : ∀ p ∈ items, p.2.view.WF)
    (hv : ∀ p ∈ allDims items, p.1 ≠ Dim.invalid)
    (hc : ∀ e m k, (e, m) ∈ allDims items → (e, k) ∈ allDims items → m ≤ k + 1) :
    ∃ sizes, WF sizes ∧ (∀ e n, (e, n) ∈ sizes ↔ IsSmallest (allDims items) e n) ∧
      SizedDict.ofItemsAuto items ro = SizedDict.ofItems sizes items ro := by
  have hpos : ∀ p ∈ allDims items, 0 ≤ p.2 := by
    intro p hp
    obtain ⟨q, hq, hp⟩ := List.mem_flatMap.1 hp
    exact (hi q hq).1.2 p hp
  obtain ⟨s, h1, h2, h3⟩ := (merge_all _ hpos [] [] WF.nil (by simp [IsSmallest])).2 hv (by simpa using hc)
  refine ⟨s, h2, by simpa using h3, ?_⟩
  have : items.foldlM mergeItemSizes [] = .ok s := by rw [mergeItems_eq]; exact h1
  simp only [SizedDict.ofItemsAuto, this]

/-- **C35** (partial: only if no dimension of the new sizes is an extra dimension of an entry): enlarging the sizes. -/
theorem C35_set_sizes_partial (d d' : SizedDict) (s : Sizes) (hd : d.Ok) (hs : WF s)
    (hx : ∀ p ∈ d.items, ∀ x ∈ labels p.2.dims, x ∉ labels d.sizes → x ∉ labels s)
    (h : d.setSizes s = .ok d') : d'.Ok := setSizes_Ok hd hs hx h

private def v1 (d : Dim) (n : Int) : View := ⟨[(d, n)], [1], 0, false⟩

private theorem v1_WF (d : Dim) (n : Int) (h : 0 ≤ n) : (v1 d n).WF := by
  refine ⟨⟨by simp [v1, labels], ?_⟩, by simp [v1], by simp [v1]⟩
  intro p hp
  simp [v1] at hp
  subst hp; exact h

private def edge1 : SizedDict := ⟨[(1, 3), (2, 2)], [(1, ⟨v1 1 4, 0, true, false⟩)], false⟩

private theorem edge1_ok : edge1.Ok := by
  refine ⟨by simp [edge1, WF, labels], by decide, ?_⟩
  intro p hp
  simp only [edge1, List.mem_singleton] at hp
  subst hp
  refine ⟨v1_WF 1 4 (by decide), rfl, 1, ?_, ?_⟩
  · intro d n h hd; simp [v1, Entry.dims] at h; exact absurd h.1 hd
  · intro n h; right; left; simp [v1, Entry.dims] at h; exact ⟨3, by simp [edge1], h⟩

-- adding a coord to data of dims (1: 3, 2: 2) with edges along 1
example := C35_set_iff edge1 2 ⟨v1 2 3, 1, true, false⟩ edge1_ok (v1_WF 2 3 (by decide)) rfl
  (fun cur h => by simp [edge1] at h)
example := C35_set_readonly { edge1 with readonly := true } 1 ⟨v1 1 4, 0, false, false⟩ (by decide) rfl
example := C35_operation edge1 ⟨[(2, 2)], [(1, ⟨⟨[(1, 2)], [1], 1, false⟩, 0, false, false⟩)], true⟩
  (.sliceCoords ⟨1, 1, -1, 1⟩) edge1_ok (.inr (by decide)) trivial (by decide)
example := C35_history_partial [.sliceCoords ⟨1, 1, -1, 1⟩, .renameDims [(2, 4)], .renameDims [(4, 1)]] edge1 edge1_ok
  (by simp only [List.mem_cons, List.not_mem_nil, or_false]; rintro _ (rfl | rfl | rfl)
      · exact ⟨.inr (by decide), trivial⟩
      · exact ⟨trivial, trivial⟩
      · exact ⟨trivial, trivial⟩)
example := C35_construct [(1, 3), (2, 2)] [(1, ⟨v1 1 4, 0, true, false⟩), (2, ⟨v1 2 2, 1, true, false⟩)] false
  ⟨[(1, 3), (2, 2)], [(1, ⟨v1 1 4, 0, true, false⟩), (2, ⟨v1 2 2, 1, true, false⟩)], false⟩ (by simp [WF, labels])
  (by simp; exact ⟨v1_WF 1 4 (by decide), v1_WF 2 2 (by decide)⟩) (by decide)
example := C35_construct_auto [(1, ⟨v1 1 4, 0, true, false⟩), (3, ⟨v1 1 3, 1, true, false⟩)] false
  ⟨[(1, 3)], [(1, ⟨v1 1 4, 0, true, false⟩), (3, ⟨v1 1 3, 1, true, false⟩)], false⟩
  (by simp; exact ⟨v1_WF 1 4 (by decide), v1_WF 1 3 (by decide)⟩) (by decide)
example := C35_auto_sizes [(1, ⟨v1 1 4, 0, true, false⟩), (3, ⟨v1 1 3, 1, true, false⟩)] false
  ⟨[(1, 3)], [(1, ⟨v1 1 4, 0, true, false⟩), (3, ⟨v1 1 3, 1, true, false⟩)], false⟩
  (by simp; exact ⟨v1_WF 1 4 (by decide), v1_WF 1 3 (by decide)⟩) (by decide) 1 3
-- in both orders of edges and non-edges
example : SizedDict.ofItemsAuto [(3, ⟨v1 1 3, 1, true, false⟩), (1, ⟨v1 1 4, 0, true, false⟩)] false =
  .ok ⟨[(1, 3)], [(3, ⟨v1 1 3, 1, true, false⟩), (1, ⟨v1 1 4, 0, true, false⟩)], false⟩ := by decide
example := C35_auto_accepted [(3, ⟨v1 1 3, 1, true, false⟩), (1, ⟨v1 1 4, 0, true, false⟩)] false
  (by simp; exact ⟨v1_WF 1 3 (by decide), v1_WF 1 4 (by decide)⟩) (by decide)
  (by simp [allDims, v1, Entry.dims]; omega)
example := C35_set_sizes_partial edge1 ⟨[(1, 3), (2, 2), (4, 6)], edge1.items, false⟩ [(1, 3), (2, 2), (4, 6)] edge1_ok
  (by simp [WF, labels]) (by simp [edge1, v1, Entry.dims, labels]) (by decide)


/-- **C35** (violation): the coords of a scalar may have an extra dimension of length 2 (the edges of a bin); enlarging
the sizes to `x: 5` is accepted, and afterwards the entry does not fit. `DataArray`'s constructor from `Coords` does this
with the dims of the data. -/
theorem C35_wrong_for_set_sizes :
    ∃ (d d' : SizedDict) (s : Sizes), d.Ok ∧ WF s ∧ d.setSizes s = .ok d' ∧ ¬ d'.Ok := by
  refine ⟨⟨[], [(5, ⟨v1 1 2, 0, true, false⟩)], false⟩, ⟨[(1, 5)], [(5, ⟨v1 1 2, 0, true, false⟩)], false⟩, [(1, 5)], ?_,
    by simp [WF, labels], by decide, ?_⟩
  · refine ⟨WF.nil, by simp, ?_⟩
    intro p hp
    simp only [List.mem_singleton] at hp
    subst hp
    refine ⟨v1_WF 1 2 (by decide), rfl, 1, ?_, ?_⟩
    · intro d n h hd; simp [v1, Entry.dims] at h; exact absurd h.1 hd
    · intro n h; right; right; simp [v1, Entry.dims] at h; simp [h, labels]
  · intro h
    obtain ⟨_, _, e, h1, h2⟩ := h.2.2 (5, ⟨v1 1 2, 0, true, false⟩) (by simp)
    by_cases he : e = 1
    · subst he
      rcases h2 2 (by simp [v1, Entry.dims]) with h | ⟨m, hm, h⟩ | ⟨h, _⟩
      · simp at h
      · simp at hm; omega
      · simp [labels] at h
    · have := h1 1 2 (by simp [v1, Entry.dims]) (fun h => he h.symm)
      simp at this

/-- **C35** (violation): `rename_dims` with `fail_on_unknown = false` renames an extra dimension of an entry to a
dimension of the data: `z: 2` becomes `x: 2` although the data has `x: 5`. -/
theorem C35_wrong_for_rename_unknown :
    ∃ (d d' : SizedDict) (names : List (Dim × Dim)), d.Ok ∧ d.renameDims names false = .ok d' ∧ ¬ d'.Ok := by
  refine ⟨⟨[(1, 5)], [(5, ⟨v1 2 2, 0, true, false⟩)], false⟩, ⟨[(1, 5)], [(5, ⟨v1 1 2, 0, true, false⟩)], false⟩, [(2, 1)], ?_,
    by decide, ?_⟩
  · refine ⟨by simp [WF, labels], by simp, ?_⟩
    intro p hp
    simp only [List.mem_singleton] at hp
    subst hp
    refine ⟨v1_WF 2 2 (by decide), rfl, 2, ?_, ?_⟩
    · intro d n h hd; simp [v1, Entry.dims] at h; exact absurd h.1 hd
    · intro n h; right; right; simp [v1, Entry.dims] at h; simp [h, labels]
  · intro h
    obtain ⟨_, _, e, h1, h2⟩ := h.2.2 (5, ⟨v1 1 2, 0, true, false⟩) (by simp)
    by_cases he : e = 1
    · subst he
      rcases h2 2 (by simp [v1, Entry.dims]) with h | ⟨m, hm, h⟩ | ⟨h, _⟩
      · simp at h
      · simp at hm; omega
      · simp [labels] at h
    · have := h1 1 2 (by simp [v1, Entry.dims]) (fun h => he h.symm)
      simp at this

/-- Data `x: 3, y: 2` with an `x` edge coord of length 4. -/
example : SizedDict.set ⟨[(1, 3), (2, 2)], [], false⟩ 1 ⟨v1 1 4, 0, true, false⟩ =
    .ok ⟨[(1, 3), (2, 2)], [(1, ⟨v1 1 4, 0, true, false⟩)], false⟩ := by decide
/-- Point slice along `x`, then rename `y` to `z`: the two edges of the bin remain. -/
example : (SizedDictOp.run ⟨[(1, 3), (2, 2)], [(1, ⟨v1 1 4, 0, true, false⟩)], false⟩
      [.sliceCoords ⟨1, 1, -1, 1⟩, .renameDims [(2, 4)], .renameDims [(4, 1)]]) =
    ⟨[(4, 2)], [(1, ⟨⟨[(1, 2)], [1], 1, false⟩, 0, false, false⟩)], false⟩ := by decide
example : (SizedDictOp.sliceCoords ⟨1, 1, -1, 1⟩).Valid ∧ (SizedDictOp.renameDims [(2, 4)]).KeepsSizes :=
  ⟨.inr (by decide), trivial⟩
example : SizedDict.ofItemsAuto [(1, ⟨v1 1 4, 0, true, false⟩), (3, ⟨v1 1 3, 1, true, false⟩)] false =
    .ok ⟨[(1, 3)], [(1, ⟨v1 1 4, 0, true, false⟩), (3, ⟨v1 1 3, 1, true, false⟩)], false⟩ := by decide

/-! ## C44 -/

/-- **C44** (slicing the dictionary always works): if the slice is valid for the data and no coord has bin edges along
the sliced dimension, or the stride is 1, all coords can be sliced. -/
theorem C44_slice_succeeds (d : SizedDict) (p : Slice) (sizes' : Sizes) (hd : d.Ok) (hp : p.Constructed)
    (h : Sizes.slice d.sizes p = .ok sizes')
    (hst : p.stride = 1 ∨ ∀ q ∈ d.items, ∀ m, (p.dim, m) ∈ d.sizes → (p.dim, m + 1) ∉ q.2.dims) :
    ∃ d', d.slice p = .ok d' ∧ d'.sizes = sizes' ∧ d'.items.map Prod.fst = d.items.map Prod.fst := by
  obtain ⟨k1, k2⟩ := slice_iff hd hp h
  obtain ⟨d', h'⟩ := k2 (fun q hq => (sliceEntry_spec hd.1 (hd.2.2 q hq) hp h).2 (hst.imp id (fun h => h q hq)))
  refine ⟨d', h', (k1 d' h').2.1, ?_⟩
  have := (k1 d' h').2.2
  generalize d.items = l at this
  generalize d'.items = l' at this
  induction this with
  | nil => rfl
  | cons h _ ih => simp [h.1, ih]

private theorem forall₂_left {α β : Type} {R : α → β → Prop} {l : List α} {l' : List β} (h : List.Forall₂ R l l')
    {a : α} (ha : a ∈ l) : ∃ b ∈ l', R a b := by
  induction h with
  | nil => simp at ha
  | cons h _ ih =>
    rcases List.mem_cons.1 ha with rfl | ha
    · exact ⟨_, by simp, h⟩
    · obtain ⟨b, hb, hR⟩ := ih ha
      exact ⟨b, by simp [hb], hR⟩

private theorem entry_of_slice {d d' : SizedDict} {p : Slice} {k : Dim} {e : Entry} (hd : d.Ok) (hp : p.Constructed)
    (h : d.slice p = .ok d') (hk : (k, e) ∈ d.items) :
    ∃ e', (k, e') ∈ d'.items ∧ sliceEntry d.sizes p e = .ok e' := by
  obtain ⟨s, hs⟩ := slice_sizes_ok h
  obtain ⟨b, hb, h1, h2⟩ := forall₂_left ((slice_iff hd hp hs).1 d' h).2.2 hk
  obtain ⟨k', e'⟩ := b
  simp only at h1 h2
  subst h1
  exact ⟨e', hb, h2⟩

/-- **C44** (other coords): a coord that has the extent of the data along the sliced dimension is sliced like the data;
a coord without that dimension stays as it is and is marked read-only. -/
theorem C44_no_edges (d d' : SizedDict) (p : Slice) (k : Dim) (e : Entry) (hd : d.Ok) (hp : p.Constructed)
    (h : d.slice p = .ok d') (hk : (k, e) ∈ d.items) :
    ∃ e', (k, e') ∈ d'.items ∧ e'.obj = e.obj ∧ e'.aligned = e.aligned ∧
      (∀ m, (p.dim, m) ∈ d.sizes → (p.dim, m) ∈ e.dims → e.view.slice p = .ok e'.view) ∧
      (p.dim ∉ labels e.dims → e'.view = { e.view with readonly := true }) := by
  obtain ⟨e', hm, he⟩ := entry_of_slice hd hp h hk
  obtain ⟨hw, hb, hF⟩ := hd.2.2 _ hk
  obtain ⟨s, hs⟩ := slice_sizes_ok h
  obtain ⟨⟨m, hm', hle⟩, _⟩ := sizes_slice_facts hd.1.1 hp hs
  by_cases hc : p.dim ∈ labels e.dims
  · obtain ⟨n, hn⟩ := mem_of_labels hc
    refine ⟨e', hm, ?_⟩
    by_cases hnm : n = m
    · subst hnm
      rw [sliceEntry_of_same hd.1 hw hn hm'] at he
      cases hv : e.view.slice p with
      | error er => rw [hv] at he; simp at he
      | ok v =>
        rw [hv] at he
        injection he with he
        subst he
        exact ⟨rfl, rfl, fun _ _ _ => rfl, fun h => absurd hc h⟩
    · rw [sliceEntry_of_edges hd.1 hw hn hm' hnm] at he
      cases hq : edgeSlice p with
      | error er => rw [hq] at he; simp at he
      | ok q =>
        rw [hq] at he
        dsimp only at he
        cases hv : e.view.slice q with
        | error er => rw [hv] at he; simp at he
        | ok v =>
          rw [hv] at he
          injection he with he
          subst he
          refine ⟨rfl, rfl, ?_, fun h => absurd hc h⟩
          intro m2 h1 h2
          have e1 := mem_unique hd.1.1 h1 hm'
          have e2 := mem_unique hw.1.1 h2 hn
          exact absurd (e2.symm.trans e1) hnm
  · rw [sliceEntry_of_not_mem hp hc] at he
    injection he with he
    subst he
    refine ⟨_, hm, rfl, rfl, ?_, fun _ => rfl⟩
    intro m2 _ h2
    exact absurd (mem_labels h2) hc

/-- **C44** (bin edges): the data has `m` bins along the sliced dimension and the coord has `m+1` edges there. Edge `i`
of the sliced coord is edge `begin + i`, for all positions along the other dimensions. A range slice of `s > 0` bins has
`s + 1` edges, a point slice has two, an empty range none. -/
theorem C44_edges (d d' : SizedDict) (p : Slice) (k : Dim) (e : Entry) (m : Int) (hd : d.Ok) (hp : p.Constructed)
    (h : d.slice p = .ok d') (hk : (k, e) ∈ d.items) (hm : (p.dim, m) ∈ d.sizes) (hn : (p.dim, m + 1) ∈ e.dims) :
    ∃ e' n', (k, e') ∈ d'.items ∧ (p.dim, n') ∈ e'.dims ∧
      (n' = if p.stop = -1 then 2 else if p.start = p.stop then 0 else p.stop - p.start + 1) ∧
      (∀ c, e'.view.addr c = e.view.addr (upd c p.dim (p.start + c p.dim))) ∧
      (∀ c, InDims e'.dims c → InDims e.dims (upd c p.dim (p.start + c p.dim))) ∧
      ∀ x n, x ≠ p.dim → ((x, n) ∈ e'.dims ↔ (x, n) ∈ e.dims) := by
  obtain ⟨e', hm', he⟩ := entry_of_slice hd hp h hk
  obtain ⟨hw, hb, hF⟩ := hd.2.2 _ hk
  obtain ⟨h0, hst, hse⟩ := hp.spec
  rw [sliceEntry_of_edges hd.1 hw hn hm (by omega)] at he
  cases hq : edgeSlice p with
  | error er => rw [hq] at he; simp at he
  | ok q =>
    rw [hq] at he
    dsimp only at he
    obtain ⟨hs1, hqc, hqe⟩ := edgeSlice_ok hp hq
    generalize hx : (if p.stop = -1 then p.start + 2 else if p.start = p.stop then p.stop else p.stop + 1) = x at hqe
    have hx1 : x ≠ -1 := by subst hx; split <;> (try split) <;> omega
    have hx2 : p.start ≤ x := by subst hx; split <;> (try split) <;> omega
    cases hv : e.view.slice q with
    | error er => rw [hv] at he; simp at he
    | ok v =>
      rw [hv] at he
      injection he with he
      subst he hqe
      obtain ⟨_, _, _, R, _⟩ := sizes_slice_facts hw.1.1 hqc (View.slice_dims hv)
      obtain ⟨_, g2, _, g4, g5⟩ := C04_range_slice e.view v p.dim p.start x 1 hw hqc hx1 hv
      refine ⟨_, x - p.start, hm', (R hx1 _).2 ?_, ?_, ?_, ?_, fun d n hd => g2 d n hd⟩
      · dsimp only; rw [sliceExtent_one hx2]
      · subst hx; split <;> (try split) <;> omega
      · intro c; simpa using g4 c
      · intro c hc; simpa using g5 c hc

private theorem isEdges_iff {sizes dims : Dims} {x : Dim} (hs : WF sizes) (hd : WF dims) (hF : Fits sizes dims) (hx : x ≠ Dim.invalid) :
    Sizes.isEdges sizes dims x = true ↔ EdgesAlong sizes dims x := by
  unfold Sizes.isEdges
  constructor
  · intro h
    split at h
    · cases h
    · rename_i h1
      split at h
      · cases h
      · have hc : x ∈ labels dims := by
          by_contra hc
          exact h1 (.inr (contains_false.2 hc))
        obtain ⟨n, hn⟩ := at?_ok_of_mem_labels hc
        refine ⟨n, at?_ok_mem hn, ?_⟩
        rw [hn] at h
        by_cases hd : x ∈ labels sizes
        · obtain ⟨m, hm⟩ := at?_ok_of_mem_labels hd
          rw [hm] at h
          exact .inl ⟨m, at?_ok_mem hm, by simpa using h⟩
        · rw [at?_error hd] at h
          exact .inr ⟨hd, by simpa using h⟩
  · rintro ⟨n, hn, h⟩
    rw [if_neg (by rintro (h2 | h2); exacts [hx h2, contains_false.1 h2 (mem_labels hn)])]
    obtain ⟨e, he1, he2⟩ := hF
    have hne : (x, n) ∉ sizes := by
      intro hc
      rcases h with ⟨m, hm, h1⟩ | ⟨h1, _⟩
      · have h2 := at?_of_mem hs.1 hm
        rw [at?_of_mem hs.1 hc] at h2
        injection h2 with h2
        omega
      · exact h1 (mem_labels hc)
    have hxe : x = e := by
      by_contra hxe
      exact hne (he1 x n hn hxe)
    rw [if_neg (by
        rintro ⟨_, hany⟩
        obtain ⟨p, hp, hpp⟩ := List.any_eq_true.1 hany
        by_cases hpd : p.1 = x
        · simp [hpd] at hpp
        · have hps := he1 p.1 p.2 hp (by rw [← hxe]; exact hpd)
          rw [contains_iff.2 (mem_labels hps), at?_of_mem hs.1 hps, at?_of_mem (s := dims) (d := p.1) (x := p.2) hd.1 hp] at hpp
          simp at hpp), at?_of_mem hd.1 hn]
    rcases h with ⟨m, hm, h1⟩ | ⟨h1, h2⟩
    · rw [at?_of_mem hs.1 hm]
      simp [h1]
    · rw [at?_error h1]
      simp [h2]

private theorem edges_unique {sizes dims : Dims} {x y : Dim} (hs : WF sizes) (hF : Fits sizes dims)
    (h1 : EdgesAlong sizes dims x) (h2 : EdgesAlong sizes dims y) : x = y := by
  obtain ⟨e, he1, _⟩ := hF
  have key : ∀ z, EdgesAlong sizes dims z → z = e := by
    rintro z ⟨n, hn, h⟩
    by_contra hze
    have hc := he1 z n hn hze
    rcases h with ⟨m, hm, h1⟩ | ⟨h1, _⟩
    · have h2 := at?_of_mem hs.1 hm
      rw [at?_of_mem hs.1 hc] at h2
      injection h2 with h2
      omega
    · exact h1 (mem_labels hc)
  rw [key x h1, key y h2]

theorem unaligned_iff {d : SizedDict} {p : Slice} {key : Dim} {e : Entry} (hs : WF d.sizes) (hd : WF e.dims) (hF : Fits d.sizes e.dims)
    (hi : Dim.invalid ∉ labels e.dims) (hpi : p.dim ≠ Dim.invalid) (hpn : p ≠ Slice.none) :
    d.unalignedBySlice p key e = true ↔ p.stop = -1 ∧ LabelsDim d.sizes key e.dims p.dim := by
  unfold SizedDict.unalignedBySlice
  by_cases hst : p.stop = -1
  · rw [if_neg (by rintro (h | h); exacts [hpn h, h hst])]
    simp only [Bool.and_eq_true, decide_eq_true_eq, hst, true_and, LabelsDim]
    rw [contains_iff]
    refine and_congr_right (fun hmem => ?_)
    unfold SizedDict.dimOf
    have hl0 : e.dims.length ≠ 0 := by
      intro h
      rw [List.length_eq_zero_iff.1 h] at hmem
      simp at hmem
    rw [if_neg hl0]
    by_cases hl1 : e.dims.length = 1
    · rw [if_pos hl1]
      simp only [hl1, true_or, iff_true]
      obtain ⟨q, hq⟩ := List.length_eq_one_iff.1 hl1
      rw [hq] at hmem ⊢
      simp only [labels_cons, List.mem_cons] at hmem
      simpa [Dims.inner, eq_comm] using hmem
    · rw [if_neg hl1]
      simp only [hl1, false_or]
      cases hf : (labels e.dims).find? (fun x => Sizes.isEdges d.sizes e.dims x) with
      | some x =>
        have hx := List.find?_some hf
        have hxm := List.mem_of_find?_eq_some hf
        have hE := (isEdges_iff hs hd hF (fun h => hi (h ▸ hxm))).1 hx
        simp only
        constructor
        · rintro rfl; exact .inl hE
        · rintro (h | ⟨_, h⟩)
          · exact edges_unique hs hF hE h
          · exact absurd hE (h x)
      | none =>
        have hno : ∀ y, ¬ EdgesAlong d.sizes e.dims y := by
          intro y hy
          obtain ⟨n, hn, _⟩ := id hy
          have := List.find?_eq_none.1 hf y (mem_labels hn)
          exact this ((isEdges_iff hs hd hF (fun h => hi (h ▸ mem_labels hn))).2 hy)
        simp only
        by_cases hk : key = p.dim
        · subst hk
          rw [if_pos (contains_iff.2 hmem)]
          simp [hno]
        · simp only [hk, false_and, or_false]
          constructor
          · intro h
            split at h
            · exact absurd h hk
            · exact absurd h.symm hpi
          · exact fun h => absurd h (hno _)
  · rw [if_pos (.inr hst)]
    simp [hst]

private theorem alignFold {d : SizedDict} {p : Slice} : ∀ (l : List (Dim × Entry)) (c c' : SizedDict), (l.map Prod.fst).Nodup →
    l.foldlM (d.alignStep p) c = .ok c' → ∀ k, lookupEntry c'.items k = match lookupEntry l k with
      | none => lookupEntry c.items k
      | some e => if d.unalignedBySlice p k e then (lookupEntry c.items k).map (fun x => { x with aligned := false })
        else lookupEntry c.items k
  | [], c, c', _, h, k => by
    simp only [List.foldlM_nil, pure, Except.pure, Except.ok.injEq] at h
    subst h
    rfl
  | (key, e) :: l, c, c', hn, h, k => by
    simp only [List.map_cons, List.nodup_cons] at hn
    rw [List.foldlM_cons] at h
    simp only [bind, Except.bind] at h
    cases hst : d.alignStep p c (key, e) with
    | error er => rw [hst] at h; cases h
    | ok c1 =>
      rw [hst] at h
      have ih := alignFold l c1 c' hn.2 h k
      rw [ih]
      simp only [SizedDict.alignStep] at hst
      simp only [lookupEntry]
      by_cases hk : key = k
      · subst hk
        rw [if_pos rfl, lookup_none.2 hn.1]
        simp only
        split at hst
        · rename_i hu
          rw [if_pos hu]
          unfold SizedDict.setAligned at hst
          split at hst
          · cases hst
          · split at hst
            · cases hst
            · rename_i x hx
              injection hst with hst
              subst hst
              simp only
              rw [lookup_insert, if_pos rfl, hx]
              rfl
        · rename_i hu
          rw [if_neg hu]
          injection hst with hst
          rw [hst]
      · rw [if_neg hk]
        have hsame : lookupEntry c1.items k = lookupEntry c.items k := by
          split at hst
          · unfold SizedDict.setAligned at hst
            split at hst
            · cases hst
            · split at hst
              · cases hst
              · injection hst with hst
                subst hst
                simp only
                rw [lookup_insert, if_neg (fun h => hk h.symm)]
          · injection hst with hst
            rw [hst]
        rw [hsame]

/-- **C44** (alignment): slicing the coords of a data array gives the same entries as slicing the dictionary, except for the
alignment flag: a coord is aligned afterwards exactly if it was and the slice is not a point slice along the
dim whose positions the coord labels. In particular a range slice keeps all flags. -/
theorem C44_alignment (d d' : SizedDict) (p : Slice) (k : Dim) (e : Entry) (hd : d.Ok) (hp : p.Constructed) (hpi : p.dim ≠ Dim.invalid) (hpn : p ≠ Slice.none)
    (hi : Dim.invalid ∉ labels e.dims) (h : d.sliceCoords p = .ok d') (hk : (k, e) ∈ d.items) :
    ∃ s e₀ e', d.slice p = .ok s ∧ (k, e₀) ∈ s.items ∧ (k, e') ∈ d'.items ∧ e'.view = e₀.view ∧ e'.obj = e₀.obj ∧
      (e'.aligned = true ↔ e.aligned = true ∧ ¬ (p.stop = -1 ∧ LabelsDim d.sizes k e.dims p.dim)) := by
  unfold SizedDict.sliceCoords at h
  cases hs : d.slice p with
  | error er => rw [hs] at h; cases h
  | ok s =>
    rw [hs] at h
    dsimp only at h
    cases hc : d.items.foldlM (d.alignStep p) { s with readonly := false } with
    | error er => rw [hc] at h; cases h
    | ok c =>
      rw [hc] at h
      injection h with h
      subst h
      obtain ⟨e₀, h1, h2⟩ := entry_of_slice hd hp hs hk
      have hf := alignFold d.items _ c hd.2.1 hc k
      rw [lookup_of_mem hd.2.1 hk, lookup_of_mem (slice_Ok hd hp hs).2.1 h1] at hf
      simp only at hf
      have hal : e₀.aligned = e.aligned := by
        unfold sliceEntry at h2
        repeat' (split at h2)
        all_goals first
          | (injection h2 with h2; subst h2; rfl)
          | cases h2
      have hE := hd.2.2 _ hk
      have hu := unaligned_iff (p := p) (key := k) hd.1 hE.1.1 hE.2.2 hi hpi hpn
      by_cases hu' : d.unalignedBySlice p k e = true
      · rw [if_pos hu'] at hf
        refine ⟨s, e₀, { e₀ with aligned := false }, rfl, h1, lookup_mem hf, rfl, rfl, ?_⟩
        simp [hu.1 hu']
      · rw [if_neg hu'] at hf
        refine ⟨s, e₀, e₀, rfl, h1, lookup_mem hf, rfl, rfl, ?_⟩
        rw [hal]
        exact ⟨fun h => ⟨h, fun h' => hu' (hu.2 h')⟩, fun h => h.1⟩

private def edgeDict : SizedDict :=
  ⟨[(1, 3), (2, 2)], [(1, ⟨⟨[(1, 4), (2, 2)], [2, 1], 0, false⟩, 0, true, false⟩), (2, ⟨v1 2 2, 1, true, false⟩)], false⟩

example : edgeDict.slice ⟨1, 1, 3, 1⟩ = .ok ⟨[(1, 2), (2, 2)],
    [(1, ⟨⟨[(1, 3), (2, 2)], [2, 1], 2, false⟩, 0, true, false⟩), (2, ⟨⟨[(2, 2)], [1], 0, true⟩, 1, true, false⟩)], true⟩ := by
  decide
example : edgeDict.slice ⟨1, 1, -1, 1⟩ = .ok ⟨[(2, 2)],
    [(1, ⟨⟨[(1, 2), (2, 2)], [2, 1], 2, false⟩, 0, true, false⟩), (2, ⟨⟨[(2, 2)], [1], 0, true⟩, 1, true, false⟩)], true⟩ := by
  decide
example : (⟨1, 1, 3, 1⟩ : Slice).Constructed := .inl (by decide)

private theorem edgeDict_ok : edgeDict.Ok := by
  refine ⟨by simp [edgeDict, WF, labels], by decide, ?_⟩
  intro p hp
  simp only [edgeDict, List.mem_cons, List.not_mem_nil, or_false] at hp
  rcases hp with rfl | rfl
  · refine ⟨⟨by simp [WF, labels], by simp⟩, rfl, 1, ?_, ?_⟩
    · intro d n h hd; simp [Entry.dims] at h; rcases h with h | h
      · exact absurd h.1 hd
      · simp [h, edgeDict]
    · intro n h; right; left; simp [Entry.dims] at h; exact ⟨3, by simp [edgeDict], h⟩
  · exact ⟨v1_WF 2 2 (by decide), rfl, 0, by simp [Entry.dims, v1, edgeDict], by simp [Entry.dims, v1]⟩

private def edgeDictSliced : SizedDict := ⟨[(1, 2), (2, 2)],
    [(1, ⟨⟨[(1, 3), (2, 2)], [2, 1], 2, false⟩, 0, true, false⟩), (2, ⟨⟨[(2, 2)], [1], 0, true⟩, 1, true, false⟩)], true⟩

example := C44_slice_succeeds edgeDict ⟨1, 1, 3, 1⟩ [(1, 2), (2, 2)] edgeDict_ok (.inl (by decide)) (by decide) (.inl rfl)
example := C44_no_edges edgeDict edgeDictSliced ⟨1, 1, 3, 1⟩ 2 ⟨v1 2 2, 1, true, false⟩ edgeDict_ok (.inl (by decide)) (by decide)
  (by simp [edgeDict])
example := C44_edges edgeDict edgeDictSliced ⟨1, 1, 3, 1⟩ 1 ⟨⟨[(1, 4), (2, 2)], [2, 1], 0, false⟩, 0, true, false⟩ 3 edgeDict_ok
  (.inl (by decide)) (by decide) (by simp [edgeDict]) (by simp [edgeDict]) (by simp [Entry.dims])

/-- `x` = 2, `y` = 3 with a coord along `x`, a two-dim coord named `y` and one named otherwise. -/
private def alignDict : SizedDict :=
  ⟨[(2, 3), (3, 2)], [(2, ⟨v1 2 3, 0, true, false⟩), (3, ⟨⟨[(2, 3), (3, 2)], [2, 1], 0, false⟩, 1, true, false⟩),
    (4, ⟨⟨[(2, 3), (3, 2)], [2, 1], 0, false⟩, 2, true, false⟩)], false⟩

private theorem alignDict_ok : alignDict.Ok := by
  have hw : WF [(2, 3), (3, 2)] := by simp [WF, labels]
  refine ⟨hw, by decide, ?_⟩
  intro p hp
  simp only [alignDict, List.mem_cons, List.not_mem_nil, or_false] at hp
  rcases hp with rfl | rfl | rfl
  · exact ⟨⟨by simp [v1, WF, labels], by simp [v1]⟩, rfl, ⟨0, by simp [Entry.dims, v1, alignDict], by simp [Entry.dims, v1]⟩⟩
  · exact ⟨⟨hw, by simp⟩, rfl, ⟨0, fun _ _ h _ => h, fun _ h => .inl h⟩⟩
  · exact ⟨⟨hw, by simp⟩, rfl, ⟨0, fun _ _ h _ => h, fun _ h => .inl h⟩⟩

example : ((alignDict.sliceCoords ⟨2, 1, -1, 1⟩).map (fun d => d.items.map (fun p => (p.1, p.2.aligned)))) =
      .ok [(2, false), (3, true), (4, true)] ∧
    ((alignDict.sliceCoords ⟨3, 1, -1, 1⟩).map (fun d => d.items.map (fun p => (p.1, p.2.aligned)))) =
      .ok [(2, true), (3, false), (4, true)] ∧
    ((alignDict.sliceCoords ⟨2, 0, 2, 1⟩).map (fun d => d.items.map (fun p => (p.1, p.2.aligned)))) =
      .ok [(2, true), (3, true), (4, true)] := by decide

example := C44_alignment alignDict ⟨[(3, 2)], [(2, ⟨⟨[], [], 1, false⟩, 0, false, false⟩),
    (3, ⟨⟨[(3, 2)], [1], 2, false⟩, 1, true, false⟩), (4, ⟨⟨[(3, 2)], [1], 2, false⟩, 2, true, false⟩)], true⟩
  ⟨2, 1, -1, 1⟩ 2 ⟨v1 2 3, 0, true, false⟩ alignDict_ok (.inr (by decide)) (by decide) (by decide)
  (by simp [Entry.dims, v1, labels, Dim.invalid]) (by decide) (by simp [alignDict])

/-! ## C36 -/

private theorem unionFold (eq : Entry → Entry → Bool) (a : List (Dim × Entry)) :
    ∀ (b out : List (Dim × Entry)), (b.map Prod.fst).Nodup → (out.map Prod.fst).Nodup →
    ((∃ err, b.foldlM (unionStep eq a) out = .error err) ↔ ∃ k va vb, lookupEntry a k = some va ∧ (k, vb) ∈ b ∧
      va.aligned = true ∧ vb.aligned = true ∧ eq va vb = false) ∧
    ∀ r, b.foldlM (unionStep eq a) out = .ok r → (r.map Prod.fst).Nodup ∧
      ∀ k, lookupEntry r k = match lookupEntry b k with
        | none => lookupEntry out k
        | some vb => match lookupEntry a k with
          | none => if vb.aligned then some vb else lookupEntry out k
          | some va => if va.aligned then lookupEntry out k else
              if vb.aligned then some vb else if eq va vb then some vb else lookupEntry out k
  | [], out, _, ho => by
    refine ⟨by simp [pure, Except.pure], ?_⟩
    intro r h
    simp only [List.foldlM_nil, pure, Except.pure, Except.ok.injEq] at h
    subst h
    exact ⟨ho, fun k => by simp [lookupEntry]⟩
  | (key, vb) :: b, out, hb, ho => by
    simp only [List.map_cons, List.nodup_cons] at hb
    have hkb : lookupEntry b key = none := lookup_none.2 hb.1
    rw [List.foldlM_cons]
    have step : ∀ out1, unionStep eq a out (key, vb) = .ok out1 → (out1.map Prod.fst).Nodup ∧
        (∀ k, lookupEntry out1 k = if k = key then
          (match lookupEntry a key with
          | none => if vb.aligned then some vb else lookupEntry out key
          | some va => if va.aligned then lookupEntry out key else
              if vb.aligned then some vb else if eq va vb then some vb else lookupEntry out key)
          else lookupEntry out k) := by
      intro out1 h
      unfold unionStep at h
      have hins : out1 = insertEntry out key vb → (out1.map Prod.fst).Nodup ∧
          ∀ k, lookupEntry out1 k = if k = key then some vb else lookupEntry out k := by
        rintro rfl
        exact ⟨insert_nodup ho _ _, fun k => lookup_insert _ _ _ _⟩
      have hsame : out1 = out → (out1.map Prod.fst).Nodup ∧
          ∀ k, lookupEntry out1 k = if k = key then lookupEntry out key else lookupEntry out k := by
        rintro rfl
        refine ⟨ho, fun k => ?_⟩
        by_cases hk : k = key
        · rw [if_pos hk, hk]
        · rw [if_neg hk]
      dsimp only at h
      cases hl : lookupEntry a key with
      | none =>
        rw [hl] at h
        dsimp only at h
        cases hva : vb.aligned with
        | true =>
          rw [hva] at h; simp only [if_true, Except.ok.injEq] at h
          simpa [hva] using hins h.symm
        | false =>
          rw [hva] at h; simp only [Bool.false_eq_true, if_false, Except.ok.injEq] at h
          simpa [hva] using hsame h.symm
      | some va =>
        rw [hl] at h
        dsimp only at h
        cases h1 : va.aligned <;> cases h2 : vb.aligned <;> simp only [h1, h2] at h
        · cases h3 : eq va vb <;> simp [h3] at h
          · simpa [h1, h2, h3] using hsame h.symm
          · simpa [h1, h2, h3] using hins h.symm
        · simp at h
          simpa [h1, h2] using hins h.symm
        · simp at h
          simpa [h1, h2] using hsame h.symm
        · cases h3 : eq va vb <;> simp [h3] at h
          simpa [h1, h2, h3] using hsame h.symm
    have stepErr : (∃ err, unionStep eq a out (key, vb) = .error err) ↔ ∃ va, lookupEntry a key = some va ∧
        va.aligned = true ∧ vb.aligned = true ∧ eq va vb = false := by
      unfold unionStep
      dsimp only
      cases hl : lookupEntry a key with
      | none => cases hva : vb.aligned <;> simp
      | some va =>
        cases h1 : va.aligned <;> cases h2 : vb.aligned <;> cases h3 : eq va vb <;> simp [h1, h2, h3]
    cases hs : unionStep eq a out (key, vb) with
    | error er =>
      obtain ⟨va, g1, g2, g3, g4⟩ := stepErr.1 ⟨er, hs⟩
      refine ⟨⟨fun _ => ⟨key, va, vb, g1, by simp, g2, g3, g4⟩, fun _ => ⟨er, rfl⟩⟩, ?_⟩
      intro r h
      simp [bind, Except.bind] at h
    | ok out1 =>
      obtain ⟨s1, s2⟩ := step out1 hs
      obtain ⟨i1, i2⟩ := unionFold eq a b out1 hb.2 s1
      have hno : ¬ ∃ va, lookupEntry a key = some va ∧ va.aligned = true ∧ vb.aligned = true ∧ eq va vb = false := by
        rw [← stepErr, hs]; simp
      constructor
      · show (∃ err, b.foldlM (unionStep eq a) out1 = .error err) ↔ _
        rw [i1]
        constructor
        · rintro ⟨k, va, vb', g1, g2, g3⟩
          exact ⟨k, va, vb', g1, by simp [g2], g3⟩
        · rintro ⟨k, va, vb', g1, g2, g3⟩
          rcases List.mem_cons.1 g2 with h | h
          · injection h with h1 h2
            subst h1 h2
            exact absurd ⟨va, g1, g3⟩ hno
          · exact ⟨k, va, vb', g1, h, g3⟩
      · intro r h
        obtain ⟨r1, r2⟩ := i2 r h
        refine ⟨r1, ?_⟩
        intro k
        rw [r2 k]
        simp only [lookupEntry]
        by_cases hk : key = k
        · subst hk
          rw [if_pos rfl, hkb]
          dsimp only
          rw [s2 key, if_pos rfl]
        · rw [if_neg hk]
          have : lookupEntry out1 k = lookupEntry out k := by rw [s2 k, if_neg (fun h => hk h.symm)]
          rw [this]

private theorem unionLeft_lookup (a : List (Dim × Entry)) (ha : (a.map Prod.fst).Nodup) (k : Dim) :
    lookupEntry (unionLeft a) k = match lookupEntry a k with
      | none => none
      | some va => if va.aligned then some va else none := by
  induction a with
  | nil => rfl
  | cons p a ih =>
    obtain ⟨key, e⟩ := p
    simp only [List.map_cons, List.nodup_cons] at ha
    have ih := ih ha.2
    unfold unionLeft at ih ⊢
    rw [List.filter_cons]
    cases he : e.aligned with
    | true =>
      simp only [if_true, lookupEntry]
      by_cases hk : key = k
      · simp [hk, he]
      · rw [if_neg hk, ih]; simp only [if_neg hk]
    | false =>
      simp only [Bool.false_eq_true, if_false, lookupEntry]
      rw [ih]
      by_cases hk : key = k
      · subst hk
        simp [he, lookup_none.2 ha.1]
      · simp only [if_neg hk]

/-- **C36** (failure): merging fails exactly if both operands have an aligned coord of the same name with different
values. -/
theorem C36_fails_iff (eq : Entry → Entry → Bool) (a b : List (Dim × Entry)) (ha : (a.map Prod.fst).Nodup)
    (hb : (b.map Prod.fst).Nodup) :
    (∃ err, union_ eq a b = .error err) ↔
      ∃ k x y, (k, x) ∈ a ∧ (k, y) ∈ b ∧ x.aligned = true ∧ y.aligned = true ∧ eq x y = false := by
  have hn : ((unionLeft a).map Prod.fst).Nodup := ha.sublist (List.filter_sublist.map _)
  unfold union_
  rw [(unionFold eq a b _ hb hn).1]
  constructor
  · rintro ⟨k, x, y, h1, h2, h3⟩; exact ⟨k, x, y, lookup_mem h1, h2, h3⟩
  · rintro ⟨k, x, y, h1, h2, h3⟩; exact ⟨k, x, y, lookup_of_mem ha h1, h2, h3⟩

/-- **C36** (result): under every name, the result has what `mergedCoord` says. -/
theorem C36_result (eq : Entry → Entry → Bool) (a b r : List (Dim × Entry)) (ha : (a.map Prod.fst).Nodup)
    (hb : (b.map Prod.fst).Nodup) (h : union_ eq a b = .ok r) :
    (r.map Prod.fst).Nodup ∧ ∀ k, lookupEntry r k = mergedCoord eq (lookupEntry a k) (lookupEntry b k) := by
  have hn : ((unionLeft a).map Prod.fst).Nodup := ha.sublist (List.filter_sublist.map _)
  obtain ⟨h1, h2⟩ := (unionFold eq a b _ hb hn).2 r h
  refine ⟨h1, ?_⟩
  intro k
  rw [h2 k, unionLeft_lookup a ha k]
  cases lookupEntry a k <;> cases lookupEntry b k <;> simp only [mergedCoord]
  rename_i x y
  cases x.aligned <;> simp

/-- **C36** (in words): an aligned coord of either operand survives; the result is unaligned only if no operand has the
coord aligned, and then both have it with the same values. -/
theorem C36_aligned_survives (eq : Entry → Entry → Bool) (a b r : List (Dim × Entry)) (ha : (a.map Prod.fst).Nodup)
    (hb : (b.map Prod.fst).Nodup) (h : union_ eq a b = .ok r) (k : Dim) (x : Entry) :
    ((k, x) ∈ a ∧ x.aligned = true → (k, x) ∈ r) ∧
    ((k, x) ∈ b ∧ x.aligned = true → ∃ z, (k, z) ∈ r ∧ z.aligned = true ∧ (z = x ∨ eq z x = true)) ∧
    ((k, x) ∈ r → x.aligned = false →
      ∃ u v, (k, u) ∈ a ∧ (k, v) ∈ b ∧ u.aligned = false ∧ v.aligned = false ∧ eq u v = true ∧ x = v) := by
  obtain ⟨hr, hl⟩ := C36_result eq a b r ha hb h
  have hf := C36_fails_iff eq a b ha hb
  refine ⟨?_, ?_, ?_⟩
  · rintro ⟨h1, h2⟩
    have h3 := hl k
    rw [lookup_of_mem ha h1] at h3
    apply lookup_mem
    rw [h3]
    cases lookupEntry b k <;> simp [mergedCoord, h2]
  · rintro ⟨h1, h2⟩
    have h3 := hl k
    rw [lookup_of_mem hb h1] at h3
    cases hx : lookupEntry a k with
    | none =>
      rw [hx] at h3
      exact ⟨x, lookup_mem (by rw [h3]; simp [mergedCoord, h2]), h2, .inl rfl⟩
    | some u =>
      rw [hx] at h3
      simp only [mergedCoord] at h3
      cases hu : u.aligned with
      | false =>
        simp only [hu, h2, if_true, Bool.false_eq_true, if_false] at h3
        exact ⟨x, lookup_mem h3, h2, .inl rfl⟩
      | true =>
        simp only [hu, if_true] at h3
        refine ⟨u, lookup_mem h3, hu, .inr ?_⟩
        cases he : eq u x with
        | true => rfl
        | false =>
          obtain ⟨er, her⟩ := hf.2 ⟨k, u, x, lookup_mem hx, h1, hu, h2, he⟩
          rw [h] at her; simp at her
  · intro h1 h2
    have h3 := hl k
    rw [lookup_of_mem hr h1] at h3
    cases hx : lookupEntry a k with
    | none =>
      cases hy : lookupEntry b k with
      | none => rw [hx, hy] at h3; simp [mergedCoord] at h3
      | some v =>
        rw [hx, hy] at h3
        simp only [mergedCoord] at h3
        split at h3
        · rename_i hv
          injection h3 with h3; subst h3; rw [hv] at h2; simp at h2
        · simp at h3
    | some u =>
      cases hy : lookupEntry b k with
      | none =>
        rw [hx, hy] at h3
        simp only [mergedCoord] at h3
        split at h3
        · rename_i hv
          injection h3 with h3; subst h3; rw [hv] at h2; simp at h2
        · simp at h3
      | some v =>
        rw [hx, hy] at h3
        simp only [mergedCoord] at h3
        by_cases hu : u.aligned = true
        · rw [if_pos hu] at h3
          injection h3 with h3; subst h3; rw [hu] at h2; simp at h2
        · rw [if_neg hu] at h3
          by_cases hv : v.aligned = true
          · rw [if_pos hv] at h3
            injection h3 with h3; subst h3; rw [hv] at h2; simp at h2
          · rw [if_neg hv] at h3
            by_cases he : eq u v = true
            · rw [if_pos he] at h3
              injection h3 with h3
              exact ⟨u, v, lookup_mem hx, lookup_mem hy, by simpa using hu, by simpa using hv, he, h3⟩
            · rw [if_neg he] at h3; simp at h3

/-- **C36** (order): the operands may be exchanged; both orders fail, or give the same coords up to equality of
values. `equals_nan` is symmetric (C54). -/
theorem C36_order_independent (eq : Entry → Entry → Bool) (heq : ∀ x y, eq x y = eq y x) (a b : List (Dim × Entry))
    (ha : (a.map Prod.fst).Nodup) (hb : (b.map Prod.fst).Nodup) :
    ((∃ err, union_ eq a b = .error err) ↔ ∃ err, union_ eq b a = .error err) ∧
    ∀ r r', union_ eq a b = .ok r → union_ eq b a = .ok r' →
      ∀ k, SameCoord eq (lookupEntry r k) (lookupEntry r' k) := by
  constructor
  · rw [C36_fails_iff eq a b ha hb, C36_fails_iff eq b a hb ha]
    constructor
    · rintro ⟨k, x, y, h1, h2, h3, h4, h5⟩; exact ⟨k, y, x, h2, h1, h4, h3, (heq y x).trans h5⟩
    · rintro ⟨k, x, y, h1, h2, h3, h4, h5⟩; exact ⟨k, y, x, h2, h1, h4, h3, (heq y x).trans h5⟩
  · intro r r' h h' k
    rw [(C36_result eq a b r ha hb h).2 k, (C36_result eq b a r' hb ha h').2 k]
    cases hx : lookupEntry a k with
    | none => cases hy : lookupEntry b k with
      | none => simp [mergedCoord, SameCoord]
      | some y => cases hya : y.aligned <;> simp [mergedCoord, SameCoord, hya]
    | some x => cases hy : lookupEntry b k with
      | none => cases hxa : x.aligned <;> simp [mergedCoord, SameCoord, hxa]
      | some y =>
        cases hxa : x.aligned <;> cases hya : y.aligned <;> simp only [mergedCoord, hxa, hya, if_true, Bool.false_eq_true,
          if_false]
        · rw [heq y x]
          cases he : eq x y <;> simp [SameCoord, hxa, hya, (heq y x).trans he]
        · simp [SameCoord]
        · simp [SameCoord]
        · cases he : eq x y with
          | true => simp [SameCoord, hxa, hya, he]
          | false =>
            obtain ⟨er, her⟩ := (C36_fails_iff eq a b ha hb).2
              ⟨k, x, y, lookup_mem hx, lookup_mem hy, hxa, hya, he⟩
            rw [h] at her; simp at her

/-- **C36** (`intersection`, used for deprecated attributes): names with the same values in both. -/
theorem C36_intersection (eq : Entry → Entry → Bool) (a b : List (Dim × Entry)) (hb : (b.map Prod.fst).Nodup) (k : Dim)
    (x : Entry) : (k, x) ∈ intersection_ eq a b ↔ (k, x) ∈ a ∧ ∃ y, (k, y) ∈ b ∧ eq y x = true := by
  unfold intersection_
  rw [List.mem_filter]
  refine and_congr_right fun _ => ?_
  dsimp only
  cases hl : lookupEntry b k with
  | none =>
    simp only [Bool.false_eq_true, false_iff, not_exists, not_and]
    intro y hy
    exact absurd (List.mem_map_of_mem (f := Prod.fst) hy) (lookup_none.1 hl)
  | some y =>
    constructor
    · intro h; exact ⟨y, lookup_mem hl, h⟩
    · rintro ⟨z, hz, h⟩
      have := lookup_of_mem hb hz
      rw [hl] at this
      injection this with this
      rw [this]; exact h

private def byObj (x y : Entry) : Bool := x.obj == y.obj

/-- Aligned beats unaligned (name 1), unaligned in one operand only is dropped (2), aligned in one is kept (3). -/
example : union_ byObj [(1, ⟨v1 1 3, 0, false, false⟩), (2, ⟨v1 1 3, 1, false, false⟩)]
      [(1, ⟨v1 1 3, 7, true, false⟩), (3, ⟨v1 1 3, 2, true, false⟩)] =
    .ok [(1, ⟨v1 1 3, 7, true, false⟩), (3, ⟨v1 1 3, 2, true, false⟩)] := by decide
example : union_ byObj [(1, ⟨v1 1 3, 0, true, false⟩)] [(1, ⟨v1 1 3, 7, true, false⟩)] = .error .dataset := by decide
example : ∀ x y, byObj x y = byObj y x := fun x y => by simp [byObj, Bool.beq_comm]

private def unionA : List (Dim × Entry) := [(1, ⟨v1 1 3, 0, false, false⟩), (2, ⟨v1 1 3, 1, false, false⟩)]
private def unionB : List (Dim × Entry) := [(1, ⟨v1 1 3, 7, true, false⟩), (3, ⟨v1 1 3, 2, true, false⟩)]

example := C36_fails_iff byObj unionA unionB (by decide) (by decide)
example := C36_result byObj unionA unionB unionB (by decide) (by decide) (by decide)
example := C36_aligned_survives byObj unionA unionB unionB (by decide) (by decide) (by decide) 3 ⟨v1 1 3, 2, true, false⟩
example := C36_order_independent byObj (fun x y => by simp [byObj, Bool.beq_comm]) unionA unionB (by decide) (by decide)
example := C36_intersection byObj unionA unionB (by decide) 1 ⟨v1 1 3, 0, false, false⟩

end Scipp.Props
