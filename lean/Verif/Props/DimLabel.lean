import Verif.Model.DimLabel
import Mathlib.Data.List.Nodup

/-!
# C63: labels of dims

Two dims constructed from labels are equal exactly if the labels are equal, and `name` gives the
label back. This is proved for all executions of any number of threads in which no two threads
are at the same time about to register the same new label; it is false without that condition,
because the label is not looked up again under the exclusive lock.
-/

namespace Scipp.Props
open Scipp Scipp.DimLabel

/-- Some thread has constructed `Dim(label)` and got `id`. -/
def Labelled (s : DimLabel.State) (label : String) (id : Nat) : Prop :=
  ∃ t ∈ s.threads, (label, some id) ∈ t.done

/-- Dims are equal exactly if their labels are. -/
def LabelsIdentify (s : DimLabel.State) : Prop :=
  ∀ l₁ id₁ l₂ id₂, Labelled s l₁ id₁ → Labelled s l₂ id₂ → (id₁ = id₂ ↔ l₁ = l₂)

/-- No two threads are between the two sections of the constructor with the same label. -/
def NoRace (s : DimLabel.State) : Prop :=
  ∀ (i j : Nat) (ti tj : Thread) (l : String), s.threads[i]? = some ti → s.threads[j]? = some tj → ti.pending = some l →
    tj.pending = some l → i = j

/-! ### Tables -/

theorem label_mem {ids : List (String × Nat)} {l : String} {i : Nat} (h : DimLabel.find ids l = some i) :
    (l, i) ∈ ids := by
  induction ids with
  | nil => simp [DimLabel.find] at h
  | cons x r ih =>
    obtain ⟨k, j⟩ := x
    simp only [DimLabel.find] at h
    split at h
    · rename_i he
      injection h with h
      subst he h
      simp
    · exact List.mem_cons_of_mem _ (ih h)

theorem label_none {ids : List (String × Nat)} {l : String} :
    DimLabel.find ids l = none ↔ l ∉ ids.map Prod.fst := by
  induction ids with
  | nil => simp [DimLabel.find]
  | cons x r ih =>
    obtain ⟨k, j⟩ := x
    simp only [DimLabel.find]
    split
    · rename_i he; simp [he]
    · rename_i he
      rw [ih]
      simp only [List.map_cons, List.mem_cons, not_or]
      exact ⟨fun h => ⟨fun e => he e.symm, h⟩, fun h => h.2⟩

theorem label_append {ids more : List (String × Nat)} {l : String} {i : Nat}
    (h : DimLabel.find ids l = some i) : DimLabel.find (ids ++ more) l = some i := by
  induction ids with
  | nil => simp [DimLabel.find] at h
  | cons x r ih =>
    obtain ⟨k, j⟩ := x
    simp only [DimLabel.find, List.cons_append] at h ⊢
    split at h
    · rename_i he; simpa [he] using h
    · rename_i he; simp [he, ih h]

theorem label_append_self {ids : List (String × Nat)} {l : String} {i : Nat}
    (h : DimLabel.find ids l = none) : DimLabel.find (ids ++ [(l, i)]) l = some i := by
  induction ids with
  | nil => simp [DimLabel.find]
  | cons x r ih =>
    obtain ⟨k, j⟩ := x
    simp only [DimLabel.find, List.cons_append] at h ⊢
    split at h
    · simp at h
    · rename_i he; simp [he, ih h]

theorem assign_new {ids : List (String × Nat)} {l : String} {i : Nat}
    (h : DimLabel.find ids l = none) : assign ids l i = ids ++ [(l, i)] := by
  induction ids with
  | nil => rfl
  | cons x r ih =>
    obtain ⟨k, j⟩ := x
    simp only [DimLabel.find] at h
    split at h
    · simp at h
    · rename_i he; simp [assign, he, ih h]

theorem assign_length {ids : List (String × Nat)} {l : String} {i : Nat} :
    ids.length ≤ (assign ids l i).length := by
  induction ids with
  | nil => simp [assign]
  | cons x r ih =>
    obtain ⟨k, j⟩ := x
    simp only [assign]
    split <;> simp [ih]

theorem assign_keys {ids : List (String × Nat)} {l : String} {i : Nat} {k : String} :
    k ∈ (assign ids l i).map Prod.fst ↔ k = l ∨ k ∈ ids.map Prod.fst := by
  induction ids with
  | nil => simp [assign]
  | cons x r ih =>
    obtain ⟨m, j⟩ := x
    simp only [assign]
    split
    · rename_i he; subst he; simp
    · simp only [List.map_cons, List.mem_cons, ih]
      tauto

theorem assign_nodup {ids : List (String × Nat)} {l : String} {i : Nat}
    (h : (ids.map Prod.fst).Nodup) : ((assign ids l i).map Prod.fst).Nodup := by
  induction ids with
  | nil => simp [assign]
  | cons x r ih =>
    obtain ⟨m, j⟩ := x
    simp only [List.map_cons, List.nodup_cons] at h
    simp only [assign]
    split
    · simpa using h
    · rename_i he
      simp only [List.map_cons, List.nodup_cons]
      refine ⟨?_, ih h.2⟩
      rw [assign_keys]
      rintro (e | e)
      · exact he e
      · exact h.1 e

theorem builtin_labels_nodup : (builtinIds.map Prod.fst).Nodup := by decide
theorem builtin_ids_nodup : (builtinIds.map Prod.snd).Nodup := by decide
theorem builtin_small : ∀ x ∈ builtinIds, x.2 < 1000 := by decide

theorem id_unique {ids : List (String × Nat)} (h : (ids.map Prod.snd).Nodup) {l k : String} {i : Nat}
    (h1 : (l, i) ∈ ids) (h2 : (k, i) ∈ ids) : l = k := by
  induction ids with
  | nil => simp at h1
  | cons x r ih =>
    simp only [List.map_cons, List.nodup_cons] at h
    rcases List.mem_cons.1 h1 with e1 | e1 <;> rcases List.mem_cons.1 h2 with e2 | e2
    · have := e1.trans e2.symm
      injection this
    · exact absurd (List.mem_map.2 ⟨_, e2, by simp [← e1]⟩) h.1
    · exact absurd (List.mem_map.2 ⟨_, e1, by simp [← e2]⟩) h.1
    · exact ih h.2 e1 e2

/-! ### The invariant -/

/-- Invariant of executions without race: ids of custom labels count from 1000, labels are
different from each other and from the built-in ones, what has been constructed is what would be
found now, and what is about to be registered is new. -/
structure Tidy (s : DimLabel.State) : Prop where
  ids : s.custom.map Prod.snd = (List.range s.custom.length).map (· + 1000)
  labels : (s.custom.map Prod.fst).Nodup
  fresh : ∀ x ∈ s.custom, DimLabel.find builtinIds x.1 = none
  done : ∀ t ∈ s.threads, ∀ l id, (l, some id) ∈ t.done → readSection s.custom l = some id
  pending : ∀ t ∈ s.threads, ∀ l, t.pending = some l →
    DimLabel.find builtinIds l = none ∧ DimLabel.find s.custom l = none

theorem start_tidy (programs : List (List String)) : Tidy (start programs) := by
  constructor
  · simp [start]
  · simp [start]
  · simp [start]
  · intro t ht; simp only [start, List.mem_map] at ht; obtain ⟨p, _, rfl⟩ := ht; simp
  · intro t ht; simp only [start, List.mem_map] at ht; obtain ⟨p, _, rfl⟩ := ht; simp

theorem read_append {custom : List (String × Nat)} {l k : String} {i j : Nat}
    (h : readSection custom l = some i) : readSection (custom ++ [(k, j)]) l = some i := by
  simp only [readSection] at h ⊢
  split at h
  · exact h
  · exact label_append h

theorem mem_set_cases {α : Type} {L : List α} {i : Nat} {x y : α} (h : x ∈ L.set i y) :
    x = y ∨ ∃ j, j ≠ i ∧ L[j]? = some x := by
  obtain ⟨j, hj⟩ := List.mem_iff_getElem?.1 h
  by_cases hji : j = i
  · subst hji
    rw [List.getElem?_set] at hj
    simp only [if_true] at hj
    split at hj
    · injection hj with hj; exact .inl hj.symm
    · simp at hj
  · rw [List.getElem?_set_ne (Ne.symm hji)] at hj
    exact .inr ⟨j, hji, hj⟩

theorem step_tidy {s : DimLabel.State} {i : Nat} (h : Tidy s) (hn : NoRace s) : Tidy (DimLabel.step s i) := by
  unfold DimLabel.step
  split
  · exact h
  rename_i t hti
  have htm := List.mem_of_getElem? hti
  unfold stepThread
  split
  · -- second section
    rename_i label hp
    obtain ⟨hb, hc⟩ := h.pending t htm label hp
    simp only [writeSection]
    by_cases hid : s.custom.length + 1000 > maxId
    · simp only [hid, if_true]
      refine ⟨h.ids, h.labels, h.fresh, ?_, ?_⟩
      · intro u hu l id hm
        rcases mem_set_cases hu with e | ⟨j, _, e⟩
        · subst e
          simp only [List.mem_append, List.mem_singleton, Prod.mk.injEq] at hm
          rcases hm with hm | hm
          · exact h.done t htm l id hm
          · simp at hm
        · exact h.done u (List.mem_of_getElem? e) l id hm
      · intro u hu l hl
        rcases mem_set_cases hu with e | ⟨j, _, e⟩
        · subst e; simp at hl
        · exact h.pending u (List.mem_of_getElem? e) l hl
    · simp only [hid, if_false]
      rw [assign_new hc]
      refine ⟨?_, ?_, ?_, ?_, ?_⟩
      · simp [h.ids, List.range_succ]
      · simp only [List.map_append, List.map_cons, List.map_nil]
        rw [List.nodup_append]
        refine ⟨h.labels, by simp, ?_⟩
        intro a ha b hb' e
        simp only [List.mem_singleton] at hb'
        subst e hb'
        exact label_none.1 hc ha
      · intro x hx
        rcases List.mem_append.1 hx with hx | hx
        · exact h.fresh x hx
        · simp only [List.mem_singleton] at hx; subst hx; exact hb
      · intro u hu l id hm
        rcases mem_set_cases hu with e | ⟨j, _, e⟩
        · subst e
          simp only [List.mem_append, List.mem_singleton, Prod.mk.injEq] at hm
          rcases hm with hm | hm
          · exact read_append (h.done t htm l id hm)
          · obtain ⟨e1, e2⟩ := hm
            injection e2 with e2
            subst e1 e2
            simp only [readSection, hb]
            exact label_append_self hc
        · exact read_append (h.done u (List.mem_of_getElem? e) l id hm)
      · intro u hu l hl
        rcases mem_set_cases hu with e | ⟨j, hji, e⟩
        · subst e; simp at hl
        · obtain ⟨g1, g2⟩ := h.pending u (List.mem_of_getElem? e) l hl
          refine ⟨g1, ?_⟩
          rw [label_none] at g2 ⊢
          simp only [List.map_append, List.map_cons, List.map_nil, List.mem_append, List.mem_singleton, not_or]
          refine ⟨g2, ?_⟩
          rintro rfl
          exact hji (hn j i u t l e hti hl hp)
  · -- first section
    rename_i hp
    split
    · refine ⟨h.ids, h.labels, h.fresh, ?_, ?_⟩
      · intro u hu l id hm
        rcases mem_set_cases hu with e | ⟨j, _, e⟩
        · subst e; exact h.done _ htm l id hm
        · exact h.done u (List.mem_of_getElem? e) l id hm
      · intro u hu l hl
        rcases mem_set_cases hu with e | ⟨j, _, e⟩
        · subst e; exact h.pending _ htm l hl
        · exact h.pending u (List.mem_of_getElem? e) l hl
    · rename_i label rest hto
      split
      · rename_i id0 hr
        refine ⟨h.ids, h.labels, h.fresh, ?_, ?_⟩
        · intro u hu l id hm
          rcases mem_set_cases hu with e | ⟨j, _, e⟩
          · subst e
            simp only [List.mem_append, List.mem_singleton, Prod.mk.injEq] at hm
            rcases hm with hm | hm
            · exact h.done _ htm l id hm
            · obtain ⟨e1, e2⟩ := hm
              injection e2 with e2
              subst e1 e2
              exact hr
          · exact h.done u (List.mem_of_getElem? e) l id hm
        · intro u hu l hl
          rcases mem_set_cases hu with e | ⟨j, _, e⟩
          · subst e; simp [hp] at hl
          · exact h.pending u (List.mem_of_getElem? e) l hl
      · rename_i hr
        refine ⟨h.ids, h.labels, h.fresh, ?_, ?_⟩
        · intro u hu l id hm
          rcases mem_set_cases hu with e | ⟨j, _, e⟩
          · subst e; exact h.done _ htm l id hm
          · exact h.done u (List.mem_of_getElem? e) l id hm
        · intro u hu l hl
          rcases mem_set_cases hu with e | ⟨j, _, e⟩
          · subst e
            simp only [Option.some.injEq] at hl
            subst hl
            simp only [readSection] at hr
            split at hr
            · simp at hr
            · rename_i hb; exact ⟨hb, hr⟩
          · exact h.pending u (List.mem_of_getElem? e) l hl

theorem run_tidy {sched : List Nat} : ∀ {s : DimLabel.State}, Tidy s →
    (∀ k, NoRace (DimLabel.run s (sched.take k))) → Tidy (DimLabel.run s sched) := by
  induction sched with
  | nil => intro s h _; exact h
  | cons i r ih =>
    intro s h hn
    exact ih (step_tidy h (hn 0)) fun k => by simpa [DimLabel.run] using hn (k + 1)

theorem tidy_ids_nodup {s : DimLabel.State} (h : Tidy s) : (s.custom.map Prod.snd).Nodup := by
  rw [h.ids]
  exact List.Nodup.map (fun a b e => by simpa using e) List.nodup_range

theorem tidy_large {s : DimLabel.State} (h : Tidy s) {l : String} {i : Nat} (hm : (l, i) ∈ s.custom) :
    1000 ≤ i := by
  have : i ∈ s.custom.map Prod.snd := List.mem_map.2 ⟨_, hm, rfl⟩
  rw [h.ids] at this
  obtain ⟨k, _, rfl⟩ := List.mem_map.1 this
  omega

theorem read_cases {custom : List (String × Nat)} {l : String} {i : Nat} (h : readSection custom l = some i) :
    (l, i) ∈ builtinIds ∨ (DimLabel.find builtinIds l = none ∧ (l, i) ∈ custom) := by
  simp only [readSection] at h
  split at h
  · rename_i hb; injection h with h; subst h; exact .inl (label_mem hb)
  · rename_i hb; exact .inr ⟨hb, label_mem h⟩

theorem read_injective {s : DimLabel.State} (h : Tidy s) {l k : String} {i : Nat}
    (h1 : readSection s.custom l = some i) (h2 : readSection s.custom k = some i) : l = k := by
  rcases read_cases h1 with a | ⟨_, a⟩ <;> rcases read_cases h2 with b | ⟨_, b⟩
  · exact id_unique builtin_ids_nodup a b
  · have := builtin_small _ a; have := tidy_large h b; simp only at *; omega
  · have := builtin_small _ b; have := tidy_large h a; simp only at *; omega
  · exact id_unique (tidy_ids_nodup h) a b

theorem tidy_identify {s : DimLabel.State} (h : Tidy s) : LabelsIdentify s := by
  rintro l₁ i₁ l₂ i₂ ⟨t, ht, hm⟩ ⟨u, hu, hk⟩
  have a := h.done t ht _ _ hm
  have b := h.done u hu _ _ hk
  constructor
  · rintro rfl; exact read_injective h a b
  · rintro rfl; rw [a] at b; injection b

theorem label_find {ids : List (String × Nat)} (h : (ids.map Prod.snd).Nodup) {l : String} {i : Nat}
    (hm : (l, i) ∈ ids) : ids.find? (fun item => item.2 = i) = some (l, i) := by
  induction ids with
  | nil => simp at hm
  | cons x r ih =>
    simp only [List.map_cons, List.nodup_cons] at h
    rcases List.mem_cons.1 hm with e | e
    · subst e; simp
    · have : x.2 ≠ i := fun he => h.1 (List.mem_map.2 ⟨_, e, he.symm⟩)
      simp only [List.find?_cons, this, decide_false]
      exact ih h.2 e

theorem tidy_name {s : DimLabel.State} (h : Tidy s) {l : String} {i : Nat} (hl : Labelled s l i) :
    DimLabel.name s.custom i = l := by
  obtain ⟨t, ht, hm⟩ := hl
  rcases read_cases (h.done t ht _ _ hm) with a | ⟨_, a⟩
  · have := builtin_small _ a
    simp only at this
    simp only [DimLabel.name, this, if_true, label_find builtin_ids_nodup a]
  · have := tidy_large h a
    have hn : ¬ i < 1000 := by omega
    simp only [DimLabel.name, hn, if_false, label_find (tidy_ids_nodup h) a]

/-! ### C63 -/

/-- **C63**, partial: whatever labels any number of threads construct dims from and however they
are interleaved, dims are equal exactly if the labels are, and `name` is the label, provided that
no two threads are at the same time about to register the same new label. What is missing is that
condition, see `C63_wrong_with_race`. -/
theorem C63_labels_partial (programs : List (List String)) (sched : List Nat)
    (hn : ∀ k, NoRace (DimLabel.run (start programs) (sched.take k))) :
    LabelsIdentify (DimLabel.run (start programs) sched) ∧
    ∀ l id, Labelled (DimLabel.run (start programs) sched) l id →
      DimLabel.name (DimLabel.run (start programs) sched).custom id = l :=
  have h := run_tidy (start_tidy programs) hn
  ⟨tidy_identify h, fun _ _ hl => tidy_name h hl⟩

/-! ### Programs without race -/

theorem step_threads_length {s : DimLabel.State} {i : Nat} :
    (DimLabel.step s i).threads.length = s.threads.length := by
  unfold DimLabel.step
  split <;> simp

/-- What a thread may still register are labels of its program. -/
def Within (programs : List (List String)) (s : DimLabel.State) : Prop :=
  ∀ (i : Nat) (t : Thread), s.threads[i]? = some t → ∃ p : List String, programs[i]? = some p ∧ (∀ l ∈ t.todo, l ∈ p) ∧
    ∀ l, t.pending = some l → l ∈ p ∧ DimLabel.find builtinIds l = none

theorem stepThread_within {custom : List (String × Nat)} {t : Thread} {p : List String}
    (h1 : ∀ l ∈ t.todo, l ∈ p)
    (h2 : ∀ l, t.pending = some l → l ∈ p ∧ DimLabel.find builtinIds l = none) :
    (∀ l ∈ (stepThread custom t).2.todo, l ∈ p) ∧
    ∀ l, (stepThread custom t).2.pending = some l → l ∈ p ∧ DimLabel.find builtinIds l = none := by
  unfold stepThread
  split
  · split
    · exact ⟨h1, by simp⟩
    · exact ⟨h1, by simp⟩
  · rename_i hp
    split
    · exact ⟨h1, h2⟩
    · rename_i label rest hto
      rw [hto] at h1
      split
      · exact ⟨fun l hl => h1 l (List.mem_cons_of_mem _ hl), by simp [hp]⟩
      · rename_i hr
        refine ⟨fun l hl => h1 l (List.mem_cons_of_mem _ hl), ?_⟩
        intro l hl
        simp only [Option.some.injEq] at hl
        subst hl
        refine ⟨h1 _ (by simp), ?_⟩
        simp only [readSection] at hr
        split at hr
        · simp at hr
        · assumption

theorem step_within {programs : List (List String)} {s : DimLabel.State} {i : Nat} (h : Within programs s) :
    Within programs (DimLabel.step s i) := by
  unfold DimLabel.step
  split
  · exact h
  rename_i t hti
  intro j u hu
  simp only at hu
  by_cases hji : j = i
  · subst hji
    rw [List.getElem?_set] at hu
    simp only [if_true] at hu
    split at hu
    · injection hu with hu
      subst hu
      obtain ⟨p, hp, g1, g2⟩ := h j t hti
      exact ⟨p, hp, stepThread_within g1 g2⟩
    · simp at hu
  · rw [List.getElem?_set_ne (Ne.symm hji)] at hu
    exact h j u hu

theorem run_within {programs : List (List String)} {sched : List Nat} : ∀ {s : DimLabel.State},
    Within programs s → Within programs (DimLabel.run s sched) := by
  induction sched with
  | nil => intro s h; exact h
  | cons i r ih => intro s h; exact ih (step_within h)

theorem start_within (programs : List (List String)) : Within programs (start programs) := by
  intro i t ht
  simp only [start, List.getElem?_map, Option.map_eq_some_iff] at ht
  obtain ⟨p, hp, rfl⟩ := ht
  exact ⟨p, hp, by simp, by simp⟩

/-- **C63** (no shared new labels): if threads use no common labels apart from the built-in ones,
dims are equal exactly if the labels are and `name` is the label, in every interleaving. -/
theorem C63_separate_labels (programs : List (List String)) (sched : List Nat)
    (hd : ∀ (i j : Nat) (p q : List String) (l : String), programs[i]? = some p → programs[j]? = some q →
      l ∈ p → l ∈ q → l ∉ builtinIds.map Prod.fst → i = j) :
    LabelsIdentify (DimLabel.run (start programs) sched) ∧
    ∀ l id, Labelled (DimLabel.run (start programs) sched) l id →
      DimLabel.name (DimLabel.run (start programs) sched).custom id = l := by
  apply C63_labels_partial
  intro k i j ti tj l hi hj hpi hpj
  have hw := run_within (sched := sched.take k) (start_within programs)
  obtain ⟨p, hp, _, g⟩ := hw i ti hi
  obtain ⟨q, hq, _, g'⟩ := hw j tj hj
  exact hd i j p q l hp hq (g l hpi).1 (g' l hpj).1 (label_none.1 (g l hpi).2)

/-- **C63** (one thread): without concurrency the property holds for all sequences of labels. -/
theorem C63_one_thread (program : List String) (sched : List Nat) :
    LabelsIdentify (DimLabel.run (start [program]) sched) ∧
    ∀ l id, Labelled (DimLabel.run (start [program]) sched) l id →
      DimLabel.name (DimLabel.run (start [program]) sched).custom id = l := by
  apply C63_separate_labels
  intro i j p q l hi hj
  have := (List.getElem?_eq_some_iff.1 hi).1
  have := (List.getElem?_eq_some_iff.1 hj).1
  simp at *
  omega

/-- **C63** is false with several threads: both find `a` missing, both register it, and the dims
differ although the labels agree; the next new label `b` then gets the id of the second `a`, so
that dims of different labels are equal. -/
theorem C63_wrong_with_race :
    let s := DimLabel.run (start [["a"], ["a", "b"]]) [0, 1, 0, 1, 1, 1]
    Labelled s "a" 1000 ∧ Labelled s "a" 1001 ∧ Labelled s "b" 1001 ∧ ¬ LabelsIdentify s := by
  have h : (DimLabel.run (start [["a"], ["a", "b"]]) [0, 1, 0, 1, 1, 1]).threads =
      [⟨[], none, [("a", some 1000)]⟩, ⟨[], none, [("a", some 1001), ("b", some 1001)]⟩] := by decide
  have h1 : Labelled (DimLabel.run (start [["a"], ["a", "b"]]) [0, 1, 0, 1, 1, 1]) "a" 1000 := by
    simp [Labelled, h]
  have h2 : Labelled (DimLabel.run (start [["a"], ["a", "b"]]) [0, 1, 0, 1, 1, 1]) "a" 1001 := by
    simp [Labelled, h]
  have h3 : Labelled (DimLabel.run (start [["a"], ["a", "b"]]) [0, 1, 0, 1, 1, 1]) "b" 1001 := by
    simp [Labelled, h]
  refine ⟨h1, h2, h3, fun hl => ?_⟩
  have := (hl _ _ _ _ h1 h2).2 rfl
  omega

/-! ### The number of labels -/

/-- What holds in every execution, with or without race. -/
structure Bounded (s : DimLabel.State) : Prop where
  labels : (s.custom.map Prod.fst).Nodup
  fits : ∀ x ∈ s.custom, x.2 ≤ maxId
  done : ∀ t ∈ s.threads, ∀ l id, (l, some id) ∈ t.done → id ≤ maxId
  failed : ∀ t ∈ s.threads, ∀ l, (l, none) ∈ t.done → maxId < s.custom.length + 1000
  registered : ∀ l ∈ s.custom.map Prod.fst, ∃ id, Labelled s l id

theorem assign_mem {ids : List (String × Nat)} {l : String} {i : Nat} {x : String × Nat}
    (h : x ∈ assign ids l i) : x.2 = i ∨ x ∈ ids := by
  induction ids with
  | nil => simp only [assign, List.mem_singleton] at h; exact .inl (by rw [h])
  | cons y r ih =>
    obtain ⟨m, j⟩ := y
    simp only [assign] at h
    split at h
    · rcases List.mem_cons.1 h with e | e
      · exact .inl (by rw [e])
      · exact .inr (List.mem_cons_of_mem _ e)
    · rcases List.mem_cons.1 h with e | e
      · exact .inr (by rw [e]; simp)
      · rcases ih e with e | e
        · exact .inl e
        · exact .inr (List.mem_cons_of_mem _ e)

theorem stepThread_done_prefix {custom : List (String × Nat)} {t : Thread} :
    ∃ more, (stepThread custom t).2.done = t.done ++ more := by
  unfold stepThread
  split
  · split <;> exact ⟨_, rfl⟩
  · split
    · exact ⟨[], by simp⟩
    · split
      · exact ⟨_, rfl⟩
      · exact ⟨[], by simp⟩

theorem labelled_step {s : DimLabel.State} {i : Nat} {l : String} {id : Nat} (h : Labelled s l id) :
    Labelled (DimLabel.step s i) l id := by
  unfold DimLabel.step
  split
  · exact h
  rename_i t hti
  obtain ⟨u, hu, hm⟩ := h
  obtain ⟨j, hj⟩ := List.mem_iff_getElem?.1 hu
  by_cases hji : j = i
  · subst hji
    rw [hj] at hti
    injection hti with hti
    subst hti
    obtain ⟨more, hmore⟩ := stepThread_done_prefix (custom := s.custom) (t := u)
    refine ⟨_, List.mem_iff_getElem?.2 ⟨j, ?_⟩, by rw [hmore]; exact List.mem_append_left _ hm⟩
    exact List.getElem?_set_self (List.getElem?_eq_some_iff.1 hj).1
  · refine ⟨u, List.mem_iff_getElem?.2 ⟨j, ?_⟩, hm⟩
    simp only
    rw [List.getElem?_set_ne (Ne.symm hji)]
    exact hj

theorem read_fits {custom : List (String × Nat)} (h : ∀ x ∈ custom, x.2 ≤ maxId) {l : String} {i : Nat}
    (hr : readSection custom l = some i) : i ≤ maxId := by
  rcases read_cases hr with a | ⟨_, a⟩
  · have := builtin_small _ a; simp only [maxId] at *; omega
  · exact h _ a

theorem step_bounded {s : DimLabel.State} {i : Nat} (h : Bounded s) : Bounded (DimLabel.step s i) := by
  have hlab := fun l id => labelled_step (s := s) (i := i) (l := l) (id := id)
  revert hlab
  unfold DimLabel.step
  split
  · intro _; exact h
  rename_i t hti
  have htm := List.mem_of_getElem? hti
  have hlt := (List.getElem?_eq_some_iff.1 hti).1
  unfold stepThread
  split
  · rename_i label hp
    simp only [writeSection]
    by_cases hid : s.custom.length + 1000 > maxId
    · simp only [hid, if_true]
      intro hlab
      refine ⟨h.labels, h.fits, ?_, ?_, ?_⟩
      · intro u hu l id hm
        rcases mem_set_cases hu with e | ⟨j, _, e⟩
        · subst e
          simp only [List.mem_append, List.mem_singleton, Prod.mk.injEq] at hm
          rcases hm with hm | hm
          · exact h.done t htm l id hm
          · simp at hm
        · exact h.done u (List.mem_of_getElem? e) l id hm
      · intro u hu l hm
        exact hid
      · intro l hl
        obtain ⟨id, hid'⟩ := h.registered l hl
        exact ⟨id, hlab _ _ hid'⟩
    · simp only [hid, if_false]
      intro hlab
      have hle := assign_length (ids := s.custom) (l := label) (i := s.custom.length + 1000)
      refine ⟨assign_nodup h.labels, ?_, ?_, ?_, ?_⟩
      · intro x hx
        rcases assign_mem hx with e | e
        · omega
        · exact h.fits x e
      · intro u hu l id hm
        rcases mem_set_cases hu with e | ⟨j, _, e⟩
        · subst e
          simp only [List.mem_append, List.mem_singleton, Prod.mk.injEq] at hm
          rcases hm with hm | hm
          · exact h.done t htm l id hm
          · obtain ⟨_, e2⟩ := hm
            injection e2 with e2
            omega
        · exact h.done u (List.mem_of_getElem? e) l id hm
      · intro u hu l hm
        have : maxId < s.custom.length + 1000 := by
          rcases mem_set_cases hu with e | ⟨j, _, e⟩
          · subst e
            simp only [List.mem_append, List.mem_singleton, Prod.mk.injEq] at hm
            rcases hm with hm | hm
            · exact h.failed t htm l hm
            · simp at hm
          · exact h.failed u (List.mem_of_getElem? e) l hm
        omega
      · intro l hl
        rcases assign_keys.1 hl with e | e
        · subst e
          refine ⟨s.custom.length + 1000, _, List.mem_iff_getElem?.2 ⟨i, List.getElem?_set_self hlt⟩, by simp⟩
        · obtain ⟨id, hid'⟩ := h.registered l e
          exact ⟨id, hlab _ _ hid'⟩
  · rename_i hp
    split
    · intro hlab
      refine ⟨h.labels, h.fits, ?_, ?_, ?_⟩
      · intro u hu l id hm
        rcases mem_set_cases hu with e | ⟨j, _, e⟩
        · subst e; exact h.done _ htm l id hm
        · exact h.done u (List.mem_of_getElem? e) l id hm
      · intro u hu l hm
        rcases mem_set_cases hu with e | ⟨j, _, e⟩
        · subst e; exact h.failed _ htm l hm
        · exact h.failed u (List.mem_of_getElem? e) l hm
      · intro l hl
        obtain ⟨id, hid'⟩ := h.registered l hl
        exact ⟨id, hlab _ _ hid'⟩
    · rename_i label rest hto
      split
      · rename_i id0 hr
        intro hlab
        refine ⟨h.labels, h.fits, ?_, ?_, ?_⟩
        · intro u hu l id hm
          rcases mem_set_cases hu with e | ⟨j, _, e⟩
          · subst e
            simp only [List.mem_append, List.mem_singleton, Prod.mk.injEq] at hm
            rcases hm with hm | hm
            · exact h.done _ htm l id hm
            · obtain ⟨_, e2⟩ := hm
              injection e2 with e2
              subst e2
              exact read_fits h.fits hr
          · exact h.done u (List.mem_of_getElem? e) l id hm
        · intro u hu l hm
          rcases mem_set_cases hu with e | ⟨j, _, e⟩
          · subst e
            simp only [List.mem_append, List.mem_singleton, Prod.mk.injEq] at hm
            rcases hm with hm | hm
            · exact h.failed _ htm l hm
            · simp at hm
          · exact h.failed u (List.mem_of_getElem? e) l hm
        · intro l hl
          obtain ⟨id, hid'⟩ := h.registered l hl
          exact ⟨id, hlab _ _ hid'⟩
      · rename_i hr
        intro hlab
        refine ⟨h.labels, h.fits, ?_, ?_, ?_⟩
        · intro u hu l id hm
          rcases mem_set_cases hu with e | ⟨j, _, e⟩
          · subst e; exact h.done _ htm l id hm
          · exact h.done u (List.mem_of_getElem? e) l id hm
        · intro u hu l hm
          rcases mem_set_cases hu with e | ⟨j, _, e⟩
          · subst e; exact h.failed _ htm l hm
          · exact h.failed u (List.mem_of_getElem? e) l hm
        · intro l hl
          obtain ⟨id, hid'⟩ := h.registered l hl
          exact ⟨id, hlab _ _ hid'⟩

theorem run_bounded {sched : List Nat} : ∀ {s : DimLabel.State}, Bounded s → Bounded (DimLabel.run s sched) := by
  induction sched with
  | nil => intro s h; exact h
  | cons i r ih => intro s h; exact ih (step_bounded h)

theorem start_bounded (programs : List (List String)) : Bounded (start programs) := by
  refine ⟨by simp [start], by simp [start], ?_, ?_, by simp [start]⟩
  · intro t ht; simp only [start, List.mem_map] at ht; obtain ⟨p, _, rfl⟩ := ht; simp
  · intro t ht; simp only [start, List.mem_map] at ht; obtain ⟨p, _, rfl⟩ := ht; simp

/-- **C63** (limit): in every execution, with or without race, ids fit 16 bits, and constructing
a dim fails only if 64536 different labels have been constructed before. -/
theorem C63_limit (programs : List (List String)) (sched : List Nat) :
    (∀ l id, Labelled (DimLabel.run (start programs) sched) l id → id < 2 ^ 16) ∧
    ∀ t ∈ (DimLabel.run (start programs) sched).threads, ∀ l, (l, none) ∈ t.done →
      ∃ ls : List String, ls.Nodup ∧ 2 ^ 16 - 1000 ≤ ls.length ∧
        ∀ k ∈ ls, ∃ id, Labelled (DimLabel.run (start programs) sched) k id := by
  have h := run_bounded (sched := sched) (start_bounded programs)
  constructor
  · rintro l id ⟨t, ht, hm⟩
    have := h.done t ht l id hm
    simp only [maxId] at this
    omega
  · intro t ht l hm
    have := h.failed t ht l hm
    refine ⟨_, h.labels, ?_, h.registered⟩
    simp only [maxId] at this
    simp only [List.length_map]
    omega

/-! ### Progress -/

/-- **C63** (progress): one thread that takes its turn often enough constructs all its dims, in
order. -/
theorem C63_all_constructed (program : List String) :
    ((DimLabel.run (start [program]) (List.replicate (2 * program.length) 0)).threads.map
      fun t => t.done.map Prod.fst) = [program] := by
  have key : ∀ (n : Nat) (custom : List (String × Nat)) (t : Thread),
      2 * t.todo.length + (if t.pending.isSome then 1 else 0) ≤ n →
      ((DimLabel.run ⟨custom, [t]⟩ (List.replicate n 0)).threads.map fun t => t.done.map Prod.fst) =
        [t.done.map Prod.fst ++ t.pending.toList ++ t.todo] := by
    intro n
    induction n with
    | zero =>
      intro custom t h
      have h1 : t.todo = [] := List.eq_nil_of_length_eq_zero (by omega)
      have h2 : t.pending = none := by
        cases hp : t.pending with
        | none => rfl
        | some l => simp [hp] at h
      simp [DimLabel.run, h1, h2]
    | succ n ih =>
      intro custom t h
      have hs : DimLabel.step ⟨custom, [t]⟩ 0 = ⟨(stepThread custom t).1, [(stepThread custom t).2]⟩ := by
        simp [DimLabel.step]
      simp only [List.replicate_succ, DimLabel.run, hs]
      rw [ih]
      · congr 1
        unfold stepThread
        split
        · rename_i label hp
          split <;> simp [hp]
        · rename_i hp
          split
          · rename_i hto; simp [hp, hto]
          · rename_i label rest hto
            split <;> simp [hp, hto]
      · generalize hu : (stepThread custom t).2 = u
        unfold stepThread at hu
        split at hu
        · rename_i label hp
          have h' : 2 * t.todo.length + 1 ≤ n + 1 := by simpa [hp] using h
          split at hu <;> subst hu <;> simp <;> omega
        · rename_i hp
          split at hu
          · rename_i hto; subst hu; simp [hp, hto]
          · rename_i label rest hto
            have h' : 2 * (rest.length + 1) + 0 ≤ n + 1 := by simpa [hto, hp] using h
            split at hu
            · subst hu; simp [hp]; omega
            · subst hu; simp; omega
  have := key (2 * program.length) [] ⟨program, none, []⟩ (by simp)
  simpa [start] using this

/-! ### Examples -/

/-- Two threads with common built-in but different custom labels: the condition of
`C63_separate_labels`. -/
example : LabelsIdentify (DimLabel.run (start [["x", "tof"], ["x", "pixel"]]) [0, 1, 0, 1, 0, 1]) :=
  (C63_separate_labels _ _ (by
    intro i j p q l hi hj hlp hlq hb
    match i, j with
    | 0, 0 => rfl
    | 1, 1 => rfl
    | 0, 1 =>
      simp at hi hj; subst hi hj; simp at hlp hlq
      rcases hlp with rfl | rfl <;> rcases hlq with e | e
      · exact absurd (by decide) hb
      · simp at e
      · simp at e
      · simp at e
    | 1, 0 =>
      simp at hi hj; subst hi hj; simp at hlp hlq
      rcases hlp with rfl | rfl <;> rcases hlq with e | e
      · exact absurd (by decide) hb
      · simp at e
      · simp at e
      · simp at e
    | i + 2, _ => simp at hi
    | 0, j + 2 => simp at hj
    | 1, j + 2 => simp at hj)).1

example : (DimLabel.run (start [["x", "tof"], ["x", "pixel"]]) [0, 1, 0, 1, 0, 1]).threads.map Thread.done =
    [[("x", some 19), ("tof", some 1000)], [("x", some 19), ("pixel", some 1001)]] := by decide

/-- Constructing a label again finds it, also in another thread. -/
example : (DimLabel.run (start [["tof", "q", "tof"], ["tof"]]) [0, 0, 1, 0, 0, 0]).threads.map Thread.done =
    [[("tof", some 1000), ("q", some 1001), ("tof", some 1000)], [("tof", some 1000)]] := by decide

example : DimLabel.name [("tof", 1000), ("q", 1001)] 1001 = "q" ∧ DimLabel.name [] 19 = "x" := by decide

/-- The ids used internally by `bin` have no label, lib/units/include/scipp/units/dim.h 25-27. -/
example : DimLabel.name [] 8 = "unreachable" := by decide

end Scipp.Props
