import Verif.Spec.AssertSame
import Mathlib.Data.List.Perm.Subperm
/-
Lemmas about `assert_identical`.
-/
namespace Scipp.AssertSame
open Scipp

theorem sizesEq_iff {a b : List (Dim × Nat)} (ha : (a.map (·.1)).Nodup) : sizesEq a b = true ↔ a.Perm b := by
  unfold sizesEq
  rw [Bool.and_eq_true, beq_iff_eq, List.all_eq_true]
  simp only [List.contains_iff_mem]
  constructor
  · rintro ⟨h1, h2⟩
    exact (List.subperm_of_subset (List.Nodup.of_map _ ha) h2).perm_of_length_le h1.ge
  · intro h
    exact ⟨h.length_eq, fun p hp => h.mem_iff.1 hp⟩

theorem eq_of_perm_labels {a b : List (Dim × Nat)} (hb : (b.map (·.1)).Nodup) (hp : a.Perm b) (hl : a.map (·.1) = b.map (·.1)) : a = b := by
  apply List.ext_getElem hp.length_eq
  intro i h1 h2
  have h3 : (a[i]).1 = (b[i]).1 := by
    have := List.getElem_of_eq hl (i := i) (by simpa using h1)
    simpa using this
  exact List.inj_on_of_nodup_map hb (hp.mem_iff.1 (List.getElem_mem h1)) (List.getElem_mem h2) h3

theorem arrayEqual_same (s : List Nat) (x y : List (Option ℚ)) : arrayEqual s x s y = true ↔ x = y := by
  unfold arrayEqual
  rw [if_pos rfl, beq_iff_eq]

theorem denseData_iff {a b : Dense} (hs : a.sizes.map (·.2) = b.sizes.map (·.2)) (hv : a.vars.isSome = b.vars.isSome) :
    denseData a b = true ↔ a.vals = b.vals ∧ a.vars = b.vars := by
  unfold denseData
  rw [Bool.and_eq_true, hs, arrayEqual_same]
  refine and_congr_right fun _ => ?_
  cases h1 : a.vars with
  | none =>
    cases h2 : b.vars with
    | none => simp
    | some _ => rw [h1, h2] at hv; simp at hv
  | some va =>
    cases h2 : b.vars with
    | none => rw [h1, h2] at hv; simp at hv
    | some vb => simp only [arrayEqual_same, Option.some.injEq]

theorem denseStructure_iff {a b : Dense} (ha : a.WF) :
    denseStructure a b = true ↔ a.sizes.Perm b.sizes ∧ a.unit = b.unit ∧ a.dtype = b.dtype ∧ a.vars.isSome = b.vars.isSome := by
  unfold denseStructure
  simp only [Bool.and_eq_true, beq_iff_eq, sizesEq_iff ha]
  tauto

theorem Dense.ext' {a b : Dense} (h1 : a.sizes = b.sizes) (h2 : a.unit = b.unit) (h3 : a.dtype = b.dtype) (h4 : a.vals = b.vals) (h5 : a.vars = b.vars) :
    a = b := by
  cases a; cases b; simp_all

theorem dense_refl (a : Dense) (ha : a.WF) : denseStructure a a = true ∧ denseData a a = true :=
  ⟨(denseStructure_iff ha).2 ⟨.refl _, rfl, rfl, rfl⟩, (denseData_iff rfl rfl).2 ⟨rfl, rfl⟩⟩

theorem dense_eq {a b : Dense} (ha : a.WF) (hb : b.WF) (hl : a.sizes.map (·.1) = b.sizes.map (·.1)) (h1 : denseStructure a b = true)
    (h2 : denseData a b = true) : a = b := by
  obtain ⟨h3, h4, h5, h6⟩ := (denseStructure_iff ha).1 h1
  have h7 := eq_of_perm_labels hb h3 hl
  obtain ⟨h8, h9⟩ := (denseData_iff (by rw [h7]) h6).1 h2
  exact Dense.ext' h7 h4 h5 h8 h9

theorem entry_eq {α : Type} {m : List (Nat × α)} (hm : Unique m) {n : Nat} {x : α} (h : (n, x) ∈ m) : entry m n = some x := by
  unfold entry
  cases hf : m.find? (fun e => e.1 == n) with
  | none => exact absurd (List.find?_eq_none.1 hf _ h) (by simp)
  | some p =>
    have h1 : p.1 = n := by simpa using List.find?_some hf
    rw [List.inj_on_of_nodup_map hm (List.mem_of_find?_eq_some hf) h h1]
    rfl

theorem mappingEq_iff {α : Type} (f : α → α → Bool) {a b : List (Nat × α)} (ha : Unique a) (hb : Unique b) :
    mappingEq f a b = true ↔ SameMap (fun x y => f x y = true) a b := by
  unfold mappingEq SameMap
  rw [Bool.and_eq_true, Bool.and_eq_true, beq_iff_eq, List.all_eq_true, List.all_eq_true]
  simp only [List.contains_iff_mem]
  constructor
  · rintro ⟨⟨h1, h2⟩, h3⟩
    refine ⟨?_, ?_⟩
    · refine (List.subperm_of_subset ha ?_).perm_of_length_le (by simp [h1])
      intro n hn
      obtain ⟨e, he, rfl⟩ := List.mem_map.1 hn
      exact h2 e he
    · intro n x y hx hy
      have := h3 (n, x) hx
      simp only [entry_eq hb hy] at this
      exact this
  · rintro ⟨h1, h2⟩
    refine ⟨⟨by simpa using h1.length_eq, fun e he => h1.mem_iff.1 (List.mem_map.2 ⟨e, he, rfl⟩)⟩, ?_⟩
    intro e he
    obtain ⟨e', he', h3⟩ := List.mem_map.1 (h1.mem_iff.1 (List.mem_map.2 ⟨e, he, rfl⟩))
    obtain ⟨n', y⟩ := e'
    simp only at h3
    subst h3
    simp only [entry_eq hb he']
    exact h2 _ _ _ he he'

theorem SameMap.imp {α : Type} {R S : α → α → Prop} {a b : List (Nat × α)} (h : SameMap R a b) (hi : ∀ n x y, (n, x) ∈ a → (n, y) ∈ b → R x y → S x y) :
    SameMap S a b := ⟨h.1, fun n x y hx hy => hi n x y hx hy (h.2 n x y hx hy)⟩

theorem one_wf {d : Dense} (h : d.sizes.length = 1) : d.WF := by
  unfold Dense.WF
  obtain ⟨p, hp⟩ := List.length_eq_one_iff.1 h
  rw [hp]; simp

theorem columns_iff {a b : Columns} (ha : Unique a) (hb : Unique b) (h1 : ∀ e ∈ a, e.2.1.sizes.length = 1) (h2 : ∀ e ∈ b, e.2.1.sizes.length = 1) :
    mappingEq denseEntry a b = true ↔ SameMap Eq a b := by
  rw [mappingEq_iff _ ha hb]
  constructor
  · intro h
    refine h.imp ?_
    rintro n ⟨x, i⟩ ⟨y, j⟩ hx hy hxy
    simp only [denseEntry, Bool.and_eq_true, beq_iff_eq] at hxy
    obtain ⟨⟨h3, h4⟩, rfl⟩ := hxy
    have hx1 := h1 _ hx
    have hy1 := h2 _ hy
    simp only at hx1 hy1
    have hp := ((denseStructure_iff (one_wf hx1)).1 h3).1
    obtain ⟨p, hpx⟩ := List.length_eq_one_iff.1 hx1
    rw [hpx] at hp
    have hpy := List.perm_singleton.1 hp.symm
    rw [dense_eq (one_wf hx1) (one_wf hy1) (by rw [hpx, hpy]) h3 h4]
  · intro h
    refine h.imp ?_
    rintro n ⟨x, i⟩ y hx hy rfl
    obtain ⟨h3, h4⟩ := dense_refl x (one_wf (h1 _ hx))
    simp [denseEntry, h3, h4]

theorem table_refl {a b : Table} (ha : a.WF) (hb : b.WF) (h : a.Same b) : tableImpl a b = true := by
  obtain ⟨h1, h2, h3⟩ := h
  unfold tableImpl
  rw [Bool.and_eq_true, Bool.and_eq_true,
    columns_iff ha.coords hb.coords (fun e he => ha.one e (List.mem_append_left _ he)) (fun e he => hb.one e (List.mem_append_left _ he)),
    columns_iff ha.masks hb.masks (fun e he => ha.one e (List.mem_append_right _ he)) (fun e he => hb.one e (List.mem_append_right _ he))]
  exact ⟨⟨h2, h3⟩, by rw [h1]; exact (denseData_iff rfl rfl).2 ⟨rfl, rfl⟩⟩

theorem table_eq {a b : Table} (ha : a.WF) (hb : b.WF) (hs : a.data.sizes = b.data.sizes) (hu : a.data.unit = b.data.unit) (hd : a.data.dtype = b.data.dtype)
    (hv : a.data.vars.isSome = b.data.vars.isSome) (h : tableImpl a b = true) : a.Same b := by
  unfold tableImpl at h
  rw [Bool.and_eq_true, Bool.and_eq_true,
    columns_iff ha.coords hb.coords (fun e he => ha.one e (List.mem_append_left _ he)) (fun e he => hb.one e (List.mem_append_left _ he)),
    columns_iff ha.masks hb.masks (fun e he => ha.one e (List.mem_append_right _ he)) (fun e he => hb.one e (List.mem_append_right _ he))] at h
  obtain ⟨⟨h2, h3⟩, h4⟩ := h
  obtain ⟨h5, h6⟩ := (denseData_iff (by rw [hs]) hv).1 h4
  exact ⟨Dense.ext' hs hu hd h5 h6, h2, h3⟩

theorem var_refl {a b : Data} (ha : a.WF) (hb : b.WF) (h : a.Same b) : varStructure a b = true ∧ varData a b = true := by
  cases a with
  | dense a =>
    cases b with
    | dense b => obtain rfl : a = b := h; exact dense_refl a ha
    | binned s c t => exact h.elim
  | binned s c t =>
    cases b with
    | dense b => exact h.elim
    | binned s' c' t' =>
      obtain ⟨rfl, rfl, h3⟩ := h
      refine ⟨?_, table_refl ha.2 hb.2 h3⟩
      simp only [varStructure, Bool.and_eq_true, beq_iff_eq]
      exact ⟨(sizesEq_iff ha.1).2 (.refl _), by rw [h3.1]⟩

theorem var_eq {a b : Data} (ha : a.WF) (hb : b.WF) (hal : a.Aligned b) (h : varImpl a b = true) : a.Same b := by
  unfold varImpl at h
  rw [Bool.and_eq_true] at h
  cases a with
  | dense a =>
    cases b with
    | dense b => exact dense_eq ha hb hal h.1 h.2
    | binned s c t => exact absurd h.1 (by simp [varStructure])
  | binned s c t =>
    cases b with
    | dense b => exact absurd h.1 (by simp [varStructure])
    | binned s' c' t' =>
      obtain ⟨h1, h2, h3, h4, h5⟩ := hal
      simp only [varStructure, Bool.and_eq_true, beq_iff_eq] at h
      exact ⟨eq_of_perm_labels hb.1 ((sizesEq_iff ha.1).1 h.1.1) h1, h2, table_eq ha.2 hb.2 h3 h.1.2 h4 h5 h.2⟩

theorem data_eq {a b : Data} (ha : a.WF) (hb : b.WF) (hk : a.SameKind b) (h : varData a b = true) : a.Same b := by
  cases a with
  | dense a =>
    cases b with
    | dense b =>
      obtain ⟨h1, h2, h3, h4⟩ := hk
      obtain ⟨h5, h6⟩ := (denseData_iff (by rw [h1]) h4).1 h
      exact Dense.ext' h1 h2 h3 h5 h6
    | binned s c t => exact absurd h (by simp [varData])
  | binned s c t =>
    cases b with
    | dense b => exact absurd h (by simp [varData])
    | binned s' c' t' =>
      obtain ⟨h1, h2, h3, h4, h5, h6⟩ := hk
      exact ⟨h1, h2, table_eq ha.2 hb.2 h3 h4 h5 h6 h⟩

theorem meta_refl {a b : Meta} (ha : Unique a ∧ ∀ e ∈ a, e.2.1.WF) (hb : Unique b ∧ ∀ e ∈ b, e.2.1.WF)
    (h : SameMap (fun x y => x.1.Same y.1 ∧ x.2 = y.2) a b) : mappingEq varEntry a b = true := by
  rw [mappingEq_iff _ ha.1 hb.1]
  refine h.imp ?_
  intro n x y hx hy hxy
  obtain ⟨h1, h2⟩ := var_refl (ha.2 _ hx) (hb.2 _ hy) hxy.1
  simp only [varEntry, varImpl, h1, h2, hxy.2, beq_self_eq_true, Bool.and_self]

theorem meta_eq {a b : Meta} (ha : Unique a ∧ ∀ e ∈ a, e.2.1.WF) (hb : Unique b ∧ ∀ e ∈ b, e.2.1.WF) (hal : AlignedMeta a b)
    (h : mappingEq varEntry a b = true) : SameMap (fun x y => x.1.Same y.1 ∧ x.2 = y.2) a b := by
  rw [mappingEq_iff _ ha.1 hb.1] at h
  refine h.imp ?_
  intro n x y hx hy hxy
  simp only [varEntry, Bool.and_eq_true, beq_iff_eq] at hxy
  exact ⟨var_eq (ha.2 _ hx) (hb.2 _ hy) (hal n x y hx hy) hxy.1, hxy.2⟩

theorem arr_refl {a b : Arr} (ha : a.WF) (hb : b.WF) (h : a.Same b) : arrImpl a b = true := by
  obtain ⟨h1, h2, h3, h4⟩ := h
  unfold arrImpl
  rw [meta_refl ha.coords hb.coords h2, meta_refl ha.attrs hb.attrs h4, meta_refl ha.masks hb.masks h3, (var_refl ha.data hb.data h1).2]
  rfl

theorem arr_eq {a b : Arr} (ha : a.WF) (hb : b.WF) (hal : a.Aligned b) (h : arrImpl a b = true) : a.Same b := by
  unfold arrImpl at h
  simp only [Bool.and_eq_true] at h
  obtain ⟨⟨⟨h1, h2⟩, h3⟩, h4⟩ := h
  exact ⟨data_eq ha.data hb.data hal.data h4, meta_eq ha.coords hb.coords hal.coords h1, meta_eq ha.masks hb.masks hal.masks h3,
    meta_eq ha.attrs hb.attrs hal.attrs h2⟩

end Scipp.AssertSame
