import Verif.Lemmas.View2

namespace Scipp
open Sizes

/-- A view as a list of (label, extent, stride). -/
def ofT (T : List (Dim × Int × Int)) (off : Int) (ro : Bool) : View :=
  ⟨T.map (fun t => (t.1, t.2.1)), T.map (fun t => t.2.2), off, ro⟩

theorem exists_ofT {v : View} (h : v.strides.length = v.dims.length) :
    ∃ T, v = ofT T v.offset v.readonly := by
  obtain ⟨dims, strides, off, ro⟩ := v
  simp only at h ⊢
  refine ⟨(dims.zip strides).map (fun q => (q.1.1, q.1.2, q.2)), ?_⟩
  simp only [ofT, List.map_map, View.mk.injEq, and_true]
  constructor
  · have : ((fun t : Dim × Int × Int => (t.1, t.2.1)) ∘ fun q : (Dim × Int) × Int => (q.1.1, q.1.2, q.2)) = Prod.fst := by
      funext q; rfl
    rw [this, List.map_fst_zip (by omega)]
  · have : ((fun t : Dim × Int × Int => t.2.2) ∘ fun q : (Dim × Int) × Int => (q.1.1, q.1.2, q.2)) = Prod.snd := by
      funext q; rfl
    rw [this, List.map_snd_zip (by omega)]

/-- Effect of a slice on one dimension. -/
def act (p : Slice) (t : Dim × Int × Int) : List (Dim × Int × Int) :=
  if t.1 = p.dim then
    if p.stop = -1 then [] else [(t.1, sliceExtent p.start p.stop p.stride, t.2.2 * p.stride)]
  else [t]

/-- Offset contributed by one dimension. -/
def contrib (p : Slice) (t : Dim × Int × Int) : Int := if t.1 = p.dim then p.start * t.2.2 else 0

theorem flatMap_act_absent {p : Slice} {T : List (Dim × Int × Int)} (h : p.dim ∉ T.map Prod.fst) :
    T.flatMap (act p) = T ∧ (T.map (contrib p)).sum = 0 := by
  induction T with
  | nil => simp
  | cons t T ih =>
    simp only [List.map_cons, List.mem_cons, not_or] at h
    have := ih h.2
    simp [act, contrib, Ne.symm h.1, this]

/-- Slicing, as an action on the list of triples. -/
theorem slice_ofT {T : List (Dim × Int × Int)} {off : Int} {ro : Bool} {p : Slice} (hp : p.Constructed)
    (hn : (T.map Prod.fst).Nodup)
    (hv : validSlice (T.map (fun t => (t.1, t.2.1))) p = .ok ()) :
    (ofT T off ro).slice p = .ok (ofT (T.flatMap (act p)) (off + (T.map (contrib p)).sum) ro) := by
  have hn' : (labels (T.map (fun t => (t.1, t.2.1)))).Nodup := by
    simpa [labels, List.map_map, Function.comp_def] using hn
  obtain ⟨n, hm, hle⟩ := (validSlice_iff hp.ne_none hn').1 hv
  obtain ⟨h0, hst, hse⟩ := hp.spec
  rw [List.mem_map] at hm
  obtain ⟨t, ht, hte⟩ := hm
  obtain ⟨T1, T2, rfl⟩ := List.append_of_mem ht
  obtain ⟨d, n', x⟩ := t
  simp only [Prod.mk.injEq] at hte
  obtain ⟨rfl, rfl⟩ := hte
  have hd1 : p.dim ∉ T1.map Prod.fst := by
    simp only [List.map_append, List.map_cons] at hn
    exact fun e => (List.nodup_append.1 hn).2.2 _ e _ (by simp) rfl
  have hd2 : p.dim ∉ T2.map Prod.fst := by
    simp only [List.map_append, List.map_cons] at hn
    exact (List.nodup_cons.1 (List.nodup_append.1 hn).2.1).1
  have hd1' : p.dim ∉ labels (T1.map (fun t => (t.1, t.2.1))) := by
    simpa [labels, List.map_map, Function.comp_def] using hd1
  obtain ⟨a1, a2⟩ := flatMap_act_absent hd1
  obtain ⟨b1, b2⟩ := flatMap_act_absent hd2
  obtain ⟨d, b, e, st⟩ := p
  simp only at *
  have hsum : ((T1 ++ (d, n', x) :: T2).map (contrib ⟨d, b, e, st⟩)).sum = b * x := by
    simp [a2, b2, contrib]
  rw [hsum]
  rcases hse with hse | hse
  · subst hse
    have hle' : b < n' := by simp at hle; omega
    have hfm : (T1 ++ (d, n', x) :: T2).flatMap (act ⟨d, b, -1, st⟩) = T1 ++ T2 := by
      simp [List.flatMap_append, a1, b1, act]
    rw [hfm]
    simp only [ofT, List.map_append, List.map_cons]
    exact View.slice_point_eq hd1' (by simp) h0 hle'
  · rw [if_neg (by omega)] at hle
    have hfm : (T1 ++ (d, n', x) :: T2).flatMap (act ⟨d, b, e, st⟩) =
        T1 ++ (d, sliceExtent b e st, x * st) :: T2 := by
      simp only [List.flatMap_append, List.flatMap_cons, a1, b1]
      simp only [act, if_true]
      rw [if_neg (by omega)]; simp
    rw [hfm]
    simp only [ofT, List.map_append, List.map_cons]
    exact View.slice_range_eq hd1' (by simp) h0 hse hst hle

theorem slice_invalid {v : View} {p : Slice} (h : validSlice v.dims p ≠ .ok ()) :
    v.slice p = .error .slice := by
  cases hv : validSlice v.dims p with
  | ok u => exact absurd hv (by cases u; simpa using h)
  | error e =>
    have := validSlice_error hv
    subst this
    simp [View.slice, hv, bind, Except.bind]

theorem act_comm {p q : Slice} (h : p.dim ≠ q.dim) (T : List (Dim × Int × Int)) :
    (T.flatMap (act p)).flatMap (act q) = (T.flatMap (act q)).flatMap (act p) := by
  rw [List.flatMap_assoc, List.flatMap_assoc]
  congr 1
  funext t
  have h1 : ∀ x y : Int, act q (p.dim, x, y) = [(p.dim, x, y)] := by intro x y; simp [act, h]
  have h2 : ∀ x y : Int, act p (q.dim, x, y) = [(q.dim, x, y)] := by intro x y; simp [act, Ne.symm h]
  obtain ⟨d, n, x⟩ := t
  by_cases hp : d = p.dim
  · subst hp
    rw [h1]
    simp only [act, if_true]
    split
    · rename_i hs; simp [act, hs]
    · rename_i hs; simp [act, h, hs]
  · by_cases hq : d = q.dim
    · subst hq
      rw [h2]
      simp only [act, if_true]
      split
      · rename_i hs; simp [act, hs]
      · rename_i hs; simp [act, hp, hs]
    · simp [act, hp, hq]

theorem contrib_act {p q : Slice} (h : p.dim ≠ q.dim) (T : List (Dim × Int × Int)) :
    ((T.flatMap (act q)).map (contrib p)).sum = (T.map (contrib p)).sum := by
  induction T with
  | nil => simp
  | cons t T ih =>
    simp only [List.flatMap_cons, List.map_append, List.sum_append, List.map_cons, List.sum_cons, ih]
    congr 1
    simp only [act]
    split
    · rename_i hq
      have hp : ¬ t.1 = p.dim := fun e => h (e.symm.trans hq)
      split <;> simp [contrib, hp]
    · simp

theorem mem_flatMap_act {p q : Slice} (h : p.dim ≠ q.dim) (T : List (Dim × Int × Int)) (n : Int) :
    (p.dim, n) ∈ (T.flatMap (act q)).map (fun t => (t.1, t.2.1)) ↔
      (p.dim, n) ∈ T.map (fun t => (t.1, t.2.1)) := by
  induction T with
  | nil => simp
  | cons t T ih =>
    simp only [List.flatMap_cons, List.map_append, List.mem_append, ih, List.map_cons, List.mem_cons]
    apply or_congr_left
    simp only [act]
    split
    · rename_i hq
      have : p.dim ≠ t.1 := fun e => h (e.trans hq)
      split <;> simp [this]
    · simp

theorem flatMap_act_nodup {q : Slice} {T : List (Dim × Int × Int)} (h : (T.map Prod.fst).Nodup) :
    ((T.flatMap (act q)).map Prod.fst).Nodup := by
  refine List.Nodup.sublist ?_ h
  induction T with
  | nil => simp
  | cons t T ih =>
    simp only [List.flatMap_cons, List.map_append, List.map_cons]
    have hi := ih (List.nodup_cons.1 h).2
    simp only [act]
    split
    · split
      · simpa using hi.trans (List.sublist_cons_self _ _)
      · simpa using hi
    · simpa using hi

/-- Slices along different dimensions commute, errors included. -/
theorem slice_comm {v : View} {p q : Slice} (hw : v.WF) (hp : p.Constructed) (hq : q.Constructed)
    (h : p.dim ≠ q.dim) :
    (v.slice p >>= fun w => w.slice q) = (v.slice q >>= fun w => w.slice p) := by
  obtain ⟨T, hT⟩ := exists_ofT hw.2.1
  have hn : (T.map Prod.fst).Nodup := by
    have := hw.1.1
    rw [hT] at this
    simpa [labels, ofT, List.map_map, Function.comp_def] using this
  rw [hT]
  have hlab : ∀ T : List (Dim × Int × Int), (T.map Prod.fst).Nodup →
      (labels (T.map (fun t => (t.1, t.2.1)))).Nodup := by
    intro T h; simpa [labels, List.map_map, Function.comp_def] using h
  -- validity of one slice is not affected by the other
  have valid_after : ∀ p q : Slice, p.Constructed → p.dim ≠ q.dim →
      (validSlice ((T.flatMap (act q)).map (fun t => (t.1, t.2.1))) p = .ok () ↔
        validSlice (T.map (fun t => (t.1, t.2.1))) p = .ok ()) := by
    intro p q hp h
    rw [validSlice_iff hp.ne_none (hlab _ (flatMap_act_nodup hn)), validSlice_iff hp.ne_none (hlab _ hn)]
    simp only [mem_flatMap_act h]
  by_cases hvp : validSlice (T.map (fun t => (t.1, t.2.1))) p = .ok () <;>
  by_cases hvq : validSlice (T.map (fun t => (t.1, t.2.1))) q = .ok ()
  · simp only [bind, Except.bind, slice_ofT hp hn hvp, slice_ofT hq hn hvq]
    rw [slice_ofT hq (flatMap_act_nodup hn) ((valid_after q p hq (Ne.symm h)).2 hvq),
      slice_ofT hp (flatMap_act_nodup hn) ((valid_after p q hp h).2 hvp),
      act_comm h, contrib_act h, contrib_act (Ne.symm h)]
    congr 2; ring
  · simp only [bind, Except.bind, slice_ofT hp hn hvp]
    rw [slice_invalid (v := ofT T _ _) hvq]
    apply slice_invalid
    exact fun e => hvq ((valid_after q p hq (Ne.symm h)).1 e)
  · simp only [bind, Except.bind, slice_ofT hq hn hvq]
    rw [slice_invalid (v := ofT T _ _) hvp]
    symm
    apply slice_invalid
    exact fun e => hvp ((valid_after p q hp h).1 e)
  · rw [slice_invalid (v := ofT T _ _) hvp, slice_invalid (v := ofT T _ _) hvq]
    rfl

end Scipp
