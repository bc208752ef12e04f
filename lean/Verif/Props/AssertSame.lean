import Verif.Lemmas.AssertSame

namespace Scipp.Props
open Scipp Scipp.AssertSame

/-- C121: `assert_identical` does not raise for identical objects. -/
theorem C121_accepts (a b : Obj) (ha : a.WF) (hb : b.WF) (h : a.Same b) : passes a b = true := by
  cases a with
  | var a =>
    cases b with
    | var b =>
      obtain ⟨h1, h2⟩ := var_refl ha hb h
      simp [passes, varImpl, h1, h2]
    | _ => exact h.elim
  | arr a =>
    cases b with
    | arr b => exact arr_refl ha hb h
    | _ => exact h.elim
  | set a =>
    cases b with
    | set b =>
      show setImpl a b = true
      unfold setImpl
      rw [mappingEq_iff _ ha.items.1 hb.items.1]
      exact h.1.imp fun n x y hx hy hxy => arr_refl (ha.items.2 _ hx) (hb.items.2 _ hy) hxy
    | _ => exact h.elim

/-- Binned data with a coord of the bins, columns in another order: identical, and accepted. -/
example : passes
    (.arr ⟨.binned [(1, 2)] [1, 1] ⟨⟨[(9, 2)], 0, 0, [some 1, none], none⟩, [(1, ⟨[(9, 2)], 3, 0, [some 5, some 6], none⟩, true), (2, ⟨[(9, 2)], 3, 0, [some 7, none], none⟩, true)], []⟩,
      [(1, .dense ⟨[(1, 2)], 3, 0, [some 0, some 1], none⟩, true)], [], []⟩)
    (.arr ⟨.binned [(1, 2)] [1, 1] ⟨⟨[(9, 2)], 0, 0, [some 1, none], none⟩, [(2, ⟨[(9, 2)], 3, 0, [some 7, none], none⟩, true), (1, ⟨[(9, 2)], 3, 0, [some 5, some 6], none⟩, true)], []⟩,
      [(1, .dense ⟨[(1, 2)], 3, 0, [some 0, some 1], none⟩, true)], [], []⟩) = true := by
  decide +kernel

/-- The hypotheses for a data array with a coord. -/
example : (Obj.arr ⟨.dense ⟨[(1, 2), (2, 1)], 0, 0, [some 1, none], none⟩, [(1, .dense ⟨[(1, 2)], 3, 0, [some 0, some 1], none⟩, true)], [], []⟩).WF ∧
    (Obj.arr ⟨.dense ⟨[(1, 2), (2, 1)], 0, 0, [some 1, none], none⟩, [(1, .dense ⟨[(1, 2)], 3, 0, [some 0, some 1], none⟩, true)], [], []⟩).Same
      (Obj.arr ⟨.dense ⟨[(1, 2), (2, 1)], 0, 0, [some 1, none], none⟩, [(1, .dense ⟨[(1, 2)], 3, 0, [some 0, some 1], none⟩, true)], [], []⟩) := by
  refine ⟨⟨?_, ?_, ?_, ?_⟩, rfl, ⟨.refl _, ?_⟩, ⟨.refl _, ?_⟩, ⟨.refl _, ?_⟩⟩
  · show List.Nodup _; decide
  · refine ⟨by show List.Nodup _; decide, ?_⟩
    intro e he
    rw [List.mem_singleton] at he
    subst he
    show List.Nodup _; decide
  · exact ⟨List.nodup_nil, by simp⟩
  · exact ⟨List.nodup_nil, by simp⟩
  · intro n x y hx hy
    rw [List.mem_singleton] at hx hy
    rw [Prod.mk.injEq] at hx hy
    rw [hx.2, hy.2]
    exact ⟨rfl, rfl⟩
  · intro n x y hx; simp at hx
  · intro n x y hx; simp at hx

/-- C121 in part: if `assert_identical` does not raise, the objects are identical, provided that what it does not look at is the same: the order of dims, the number of events of each bin, the kind of the data of
data arrays, and the coords of a dataset without items. -/
theorem C121_rejects_partial (a b : Obj) (ha : a.WF) (hb : b.WF) (hal : a.Aligned b) (h : passes a b = true) : a.Same b := by
  cases a with
  | var a =>
    cases b with
    | var b => exact var_eq ha hb hal h
    | _ => exact absurd h (by simp [passes])
  | arr a =>
    cases b with
    | arr b => exact arr_eq ha hb hal h
    | _ => exact absurd h (by simp [passes])
  | set a =>
    cases b with
    | set b =>
      obtain ⟨hne, hal⟩ := hal
      have h' : setImpl a b = true := h
      unfold setImpl at h'
      rw [mappingEq_iff _ ha.items.1 hb.items.1] at h'
      have hs : SameMap Arr.Same a.items b.items :=
        h'.imp fun n x y hx hy hxy => arr_eq (ha.items.2 _ hx) (hb.items.2 _ hy) (hal n x y hx hy) hxy
      refine ⟨hs, ?_⟩
      obtain ⟨e, he⟩ := List.exists_mem_of_ne_nil _ hne
      obtain ⟨e', he', hn⟩ := List.mem_map.1 (hs.1.mem_iff.1 (List.mem_map.2 ⟨e, he, rfl⟩))
      have hx := hs.2 e.1 e.2 e'.2 he (by rw [← hn]; exact he')
      have := hx.2.1
      rwa [ha.coords _ he, hb.coords _ he'] at this
    | _ => exact absurd h (by simp [passes])

/-- The hypotheses for datasets with one item: another value is found. -/
example : (Obj.set ⟨[(7, ⟨.dense ⟨[(1, 2)], 0, 0, [some 1, none], none⟩, [], [], []⟩)], []⟩).Aligned
      (Obj.set ⟨[(7, ⟨.dense ⟨[(1, 2)], 0, 0, [some 1, some 2], none⟩, [], [], []⟩)], []⟩) ∧
    passes (Obj.set ⟨[(7, ⟨.dense ⟨[(1, 2)], 0, 0, [some 1, none], none⟩, [], [], []⟩)], []⟩)
      (Obj.set ⟨[(7, ⟨.dense ⟨[(1, 2)], 0, 0, [some 1, some 2], none⟩, [], [], []⟩)], []⟩) = false := by
  refine ⟨⟨by simp, ?_⟩, by decide +kernel⟩
  intro n x y hx hy
  rw [List.mem_singleton, Prod.mk.injEq] at hx hy
  rw [hx.2, hy.2]
  refine ⟨⟨rfl, rfl, rfl, rfl⟩, ?_, ?_, ?_⟩ <;> (intro n x y hx; simp at hx)

/-- C121: exactly when dense variables pass: the dims may have another order if the lengths are the same. -/
theorem C121_dense (a b : Dense) (ha : a.WF) : passes (.var (.dense a)) (.var (.dense b)) = true ↔
    a.sizes.Perm b.sizes ∧ a.sizes.map (·.2) = b.sizes.map (·.2) ∧ a.unit = b.unit ∧ a.dtype = b.dtype ∧ a.vals = b.vals ∧ a.vars = b.vars := by
  show varImpl (.dense a) (.dense b) = true ↔ _
  unfold varImpl
  rw [Bool.and_eq_true]
  show denseStructure a b = true ∧ denseData a b = true ↔ _
  rw [denseStructure_iff ha]
  constructor
  · rintro ⟨⟨h1, h2, h3, h4⟩, h5⟩
    by_cases hs : a.sizes.map (·.2) = b.sizes.map (·.2)
    · obtain ⟨h6, h7⟩ := (denseData_iff hs h4).1 h5
      exact ⟨h1, hs, h2, h3, h6, h7⟩
    · exfalso
      unfold denseData arrayEqual at h5
      rw [Bool.and_eq_true] at h5
      have h6 := h5.1
      rw [if_neg hs] at h6
      have hl := h1.length_eq
      split at h6
      · rename_i h0
        rw [List.map_eq_nil_iff] at h0
        rw [h0] at hl
        exact hs (by rw [h0, List.length_eq_zero_iff.1 hl.symm])
      · split at h6
        · rename_i h0
          rw [List.map_eq_nil_iff] at h0
          rw [h0] at hl
          exact hs (by rw [h0, List.length_eq_zero_iff.1 hl])
        · exact absurd h6 (by simp)
  · rintro ⟨h1, hs, h2, h3, h4, h5⟩
    exact ⟨⟨h1, h2, h3, by rw [h5]⟩, (denseData_iff hs (by rw [h5])).2 ⟨h4, h5⟩⟩

/-- Other lengths in the same positions are found. -/
example : passes (.var (.dense ⟨[(1, 2), (2, 1)], 0, 0, [some 1, none], none⟩)) (.var (.dense ⟨[(2, 1), (1, 2)], 0, 0, [some 1, none], none⟩)) = false ∧
    passes (.var (.dense ⟨[(1, 2), (2, 1)], 0, 0, [some 1, none], none⟩)) (.var (.dense ⟨[(1, 2), (2, 1)], 0, 0, [some 1, none], none⟩)) = true := by
  decide +kernel

/-- C121: the order of dims is not looked at: a square array with other labels passes, though not identical. -/
theorem C121_wrong_dims : passes (.var (.dense ⟨[(1, 2), (2, 2)], 0, 0, [some 1, some 2, some 3, some 4], none⟩))
      (.var (.dense ⟨[(2, 2), (1, 2)], 0, 0, [some 1, some 2, some 3, some 4], none⟩)) = true ∧
    ¬ (Obj.var (.dense ⟨[(1, 2), (2, 2)], 0, 0, [some 1, some 2, some 3, some 4], none⟩)).Same
      (.var (.dense ⟨[(2, 2), (1, 2)], 0, 0, [some 1, some 2, some 3, some 4], none⟩)) := by
  refine ⟨by decide +kernel, ?_⟩
  intro h
  have h' := congrArg Dense.sizes (show _ = _ from h)
  exact absurd h' (by decide)

/-- C121: for data arrays the unit of the data is not looked at, nor its dtype, nor whether the second has variances. -/
theorem C121_wrong_unit (s : List (Dim × Nat)) (v : List (Option ℚ)) (u u' t t' : Nat) (w : Option (List (Option ℚ))) (h : u ≠ u') :
    passes (.arr ⟨.dense ⟨s, u, t, v, none⟩, [], [], []⟩) (.arr ⟨.dense ⟨s, u', t', v, w⟩, [], [], []⟩) = true ∧
    ¬ (Obj.arr ⟨.dense ⟨s, u, t, v, none⟩, [], [], []⟩).Same (.arr ⟨.dense ⟨s, u', t', v, w⟩, [], [], []⟩) := by
  refine ⟨?_, ?_⟩
  · simp [passes, arrImpl, varData, denseData, arrayEqual, mappingEq]
  · intro h'
    exact h (congrArg Dense.unit (show _ = _ from h'.1))

/-- An array of counts, and one in metres with variances. -/
example : passes (.arr ⟨.dense ⟨[(1, 2)], 5, 0, [some 1, some 2], none⟩, [], [], []⟩) (.arr ⟨.dense ⟨[(1, 2)], 6, 1, [some 1, some 2], some [some 3, some 4]⟩, [], [], []⟩) = true :=
  (C121_wrong_unit [(1, 2)] [some 1, some 2] 5 6 0 1 (some [some 3, some 4]) (by decide)).1

/-- C121: a scalar data array passes for an array of any length with this value. -/
theorem C121_wrong_scalar (d : Dim) (n u t : Nat) (x : Option ℚ) : passes (.arr ⟨.dense ⟨[], u, t, [x], none⟩, [], [], []⟩) (.arr ⟨.dense ⟨[(d, n)], u, t, List.replicate n x, none⟩, [], [], []⟩) = true ∧
    ¬ (Obj.arr ⟨.dense ⟨[], u, t, [x], none⟩, [], [], []⟩).Same (.arr ⟨.dense ⟨[(d, n)], u, t, List.replicate n x, none⟩, [], [], []⟩) := by
  refine ⟨?_, ?_⟩
  · simp [passes, arrImpl, varData, denseData, arrayEqual, mappingEq]
  · intro h'
    have := congrArg Dense.sizes (show _ = _ from h'.1)
    simp at this

/-- The scalar 3 and three elements 3. -/
example : passes (.arr ⟨.dense ⟨[], 0, 0, [some 3], none⟩, [], [], []⟩) (.arr ⟨.dense ⟨[(1, 3)], 0, 0, [some 3, some 3, some 3], none⟩, [], [], []⟩) = true :=
  (C121_wrong_scalar 1 3 0 0 (some 3)).1

/-- C121: exactly when a scalar passes for an array, and an array for a scalar: all elements are equal to the scalar. -/
theorem C121_scalar (d : Dim) (n u t : Nat) (x : Option ℚ) (ys : List (Option ℚ)) :
    (passes (.arr ⟨.dense ⟨[], u, t, [x], none⟩, [], [], []⟩) (.arr ⟨.dense ⟨[(d, n)], u, t, ys, none⟩, [], [], []⟩) = true ↔ ∀ y ∈ ys, y = x) ∧
    (passes (.arr ⟨.dense ⟨[(d, n)], u, t, ys, none⟩, [], [], []⟩) (.arr ⟨.dense ⟨[], u, t, [x], none⟩, [], [], []⟩) = true ↔ ∀ y ∈ ys, y = x) := by
  constructor <;> simp [passes, arrImpl, varData, denseData, arrayEqual, mappingEq]

/-- One element differs. -/
example : passes (.arr ⟨.dense ⟨[(1, 3)], 0, 0, [some 3, some 4, some 3], none⟩, [], [], []⟩) (.arr ⟨.dense ⟨[], 0, 0, [some 3], none⟩, [], [], []⟩) = false := by
  decide +kernel

/-- C121: how many events a bin has is not looked at: bins are concatenated. -/
theorem C121_wrong_bins (s : List (Dim × Nat)) (c c' : List Nat) (t : Table) (hs : (s.map (·.1)).Nodup) (ht : t.WF) (h : c ≠ c') :
    passes (.var (.binned s c t)) (.var (.binned s c' t)) = true ∧ ¬ (Obj.var (.binned s c t)).Same (.var (.binned s c' t)) := by
  refine ⟨?_, fun h' => h h'.2.1⟩
  have h1 : t.Same t := by
    refine ⟨rfl, ⟨.refl _, ?_⟩, ⟨.refl _, ?_⟩⟩
    · intro n x y hx hy
      exact congrArg Prod.snd (List.inj_on_of_nodup_map ht.coords hx hy rfl)
    · intro n x y hx hy
      exact congrArg Prod.snd (List.inj_on_of_nodup_map ht.masks hx hy rfl)
  show varImpl _ _ = true
  simp only [varImpl, varStructure, varData, table_refl ht ht h1, (sizesEq_iff hs).2 (.refl _), beq_self_eq_true, Bool.and_self]

/-- Three events in the first of two bins, or in the second. -/
example : passes (.var (.binned [(1, 2)] [3, 0] ⟨⟨[(9, 3)], 0, 0, [some 1, some 1, some 1], none⟩, [], []⟩))
    (.var (.binned [(1, 2)] [0, 3] ⟨⟨[(9, 3)], 0, 0, [some 1, some 1, some 1], none⟩, [], []⟩)) = true :=
  (C121_wrong_bins [(1, 2)] [3, 0] [0, 3] ⟨⟨[(9, 3)], 0, 0, [some 1, some 1, some 1], none⟩, [], []⟩ (by decide) ⟨List.nodup_nil, List.nodup_nil, by simp⟩ (by decide)).1

/-- C121: coords of datasets without items are not looked at. -/
theorem C121_wrong_dataset (c : Meta) (hc : c ≠ []) : passes (.set ⟨[], c⟩) (.set ⟨[], []⟩) = true ∧ ¬ (Obj.set ⟨[], c⟩).Same (.set ⟨[], []⟩) := by
  refine ⟨by simp [passes, setImpl, mappingEq], ?_⟩
  intro h
  have h1 : (c.map (·.1)).Perm [] := h.2.1
  rw [List.perm_nil, List.map_eq_nil_iff] at h1
  exact hc h1

/-- A dataset with a coord and an empty one. -/
example : passes (.set ⟨[], [(1, .dense ⟨[(1, 2)], 0, 0, [some 1, some 2], none⟩, true)]⟩) (.set ⟨[], []⟩) = true := (C121_wrong_dataset _ (by simp)).1

end Scipp.Props
