import Verif.Lemmas.Sizes
import Verif.Lemmas.Masks3
import Verif.Spec.View
import Mathlib.Algebra.BigOperators.Group.List.Basic
/-
**C01** (what the operations on dimension containers accept and produce) and **C43** (the sizes of concatenated datasets).
-/
namespace Scipp.Props
open Scipp Sizes

private theorem at?_error_iff {s : Sizes} {d : Dim} : (∃ e, at? s d = .error e) ↔ d ∉ labels s := by
  constructor
  · rintro ⟨e, h⟩ hm
    obtain ⟨x, hx⟩ := at?_ok_of_mem_labels hm
    rw [hx] at h; cases h
  · intro h
    cases hx : at? s d with
    | error e => exact ⟨e, rfl⟩
    | ok x => exact absurd (mem_labels (at?_ok_mem hx)) h

/-- **C01** (adding): a dimension is added exactly if its label is valid and new and its extent is not negative; extent zero is allowed.
`add` puts it outermost, `addInner` innermost. -/
theorem C01_add_iff (s r : Dims) (d : Dim) (x : Int) :
    (Dims.add s d x = .ok r ↔ d ≠ Dim.invalid ∧ 0 ≤ x ∧ d ∉ labels s ∧ r = (d, x) :: s) ∧
    (Dims.addInner s d x = .ok r ↔ d ≠ Dim.invalid ∧ 0 ≤ x ∧ d ∉ labels s ∧ r = s ++ [(d, x)]) := by
  constructor
  · unfold Dims.add insertLeft
    by_cases h1 : d = Dim.invalid
    · simp [h1]
    by_cases h2 : x < 0
    · simp [h1, h2, not_le.2 h2]
    by_cases h3 : d ∈ labels s
    · simp [h1, h2, h3, (contains_iff).2 h3]
    · simp [h1, h2, h3, (contains_false).2 h3, not_lt.1 h2, eq_comm]
  · unfold Dims.addInner insertRight
    by_cases h1 : d = Dim.invalid
    · simp [h1]
    by_cases h2 : x < 0
    · simp [h1, h2, not_le.2 h2]
    by_cases h3 : d ∈ labels s
    · simp [h1, h2, h3, (contains_iff).2 h3]
    · simp [h1, h2, h3, (contains_false).2 h3, not_lt.1 h2, eq_comm]

example : Dims.add [(1, 2)] 3 0 = .ok [(3, 0), (1, 2)] ∧ Dims.addInner [(1, 2)] 3 0 = .ok [(1, 2), (3, 0)] ∧
    Dims.add [(1, 2)] 3 (-1) = .error .dimension ∧ Dims.addInner [(1, 2)] 1 2 = .error .dimension := ⟨rfl, rfl, rfl, rfl⟩

/-- **C01** (setting): `set` accepts a valid label with an extent that is not negative and, if the label exists, equal to the extent it
has. It adds a new label at the end, and changes nothing if the label exists. -/
theorem C01_set_iff (s r : Sizes) (d : Dim) (x : Int) (hs : WF s) :
    Sizes.set s d x = .ok r ↔ d ≠ Dim.invalid ∧ 0 ≤ x ∧ (d ∉ labels s ∧ r = s ++ [(d, x)] ∨ (d, x) ∈ s ∧ r = s) := by
  unfold Sizes.set
  by_cases h1 : d = Dim.invalid
  · simp [h1]
  by_cases h2 : x < 0
  · simp [h1, h2, not_le.2 h2]
  rw [if_neg h1, if_neg h2]
  cases hx : at? s d with
  | error e =>
    have h3 := at?_error_iff.1 ⟨e, hx⟩
    have h4 : (d, x) ∉ s := fun h => h3 (mem_labels h)
    simp [insertRight, (contains_false).2 h3, h1, h3, h4, not_lt.1 h2, eq_comm]
  | ok y =>
    have h3 := mem_labels (at?_ok_mem hx)
    have h4 : (d, x) ∈ s ↔ y = x := by
      constructor
      · intro h
        have := at?_of_mem hs.1 h
        rw [hx] at this
        exact Except.ok.inj this
      · rintro rfl
        exact at?_ok_mem hx
    by_cases h5 : y = x
    · simp [h5, h1, h3, h4, not_lt.1 h2, eq_comm]
    · simp [h5, h3, h4]

example : Sizes.set [(1, 2)] 3 0 = .ok [(1, 2), (3, 0)] ∧ Sizes.set [(1, 2)] 1 2 = .ok [(1, 2)] ∧ Sizes.set [(1, 2)] 1 3 = .error .dimension :=
  ⟨rfl, rfl, rfl⟩

private theorem assign_iff {s r : Sizes} {d : Dim} {x : Int} (hs : (labels s).Nodup) :
    assign s d x = .ok r ↔ d ∈ labels s ∧ r = s.map (fun p => if p.1 = d then (d, x) else p) := by
  induction s generalizing r with
  | nil => simp [assign]
  | cons p s ih =>
    obtain ⟨k, v⟩ := p
    simp only [labels_cons, List.nodup_cons] at hs
    simp only [assign]
    by_cases hk : k = d
    · subst hk
      have : s.map (fun p => if p.1 = k then (k, x) else p) = s := by
        conv_rhs => rw [← List.map_id s]
        apply List.map_congr_left
        intro p hp
        rw [if_neg, id]
        intro hc
        exact hs.1 (hc ▸ mem_labels hp)
      rw [if_pos rfl, List.map_cons, this]
      simp [eq_comm]
    · rw [if_neg hk]
      have hk' : d ≠ k := fun h => hk h.symm
      cases ha : assign s d x with
      | error e =>
        simp only [Except.map, labels_cons, List.mem_cons, hk', false_or, List.map_cons, hk, if_false, reduceCtorEq, false_iff, not_and]
        intro hm
        have := (ih hs.2 (r := s.map (fun p => if p.1 = d then (d, x) else p))).2 ⟨hm, rfl⟩
        rw [ha] at this; cases this
      | ok t =>
        obtain ⟨hm, ht⟩ := (ih hs.2).1 ha
        simp [Except.map, hk, hk', hm, ht, eq_comm]

/-- **C01** (resizing): `resize` accepts an existing label with an extent that is not negative, and changes that extent only. -/
theorem C01_resize_iff (s r : Sizes) (d : Dim) (x : Int) (hs : WF s) :
    Sizes.resize s d x = .ok r ↔ 0 ≤ x ∧ d ∈ labels s ∧ r = s.map (fun p => if p.1 = d then (d, x) else p) := by
  unfold Sizes.resize
  by_cases h2 : x < 0
  · simp [h2, not_le.2 h2]
  · rw [if_neg h2, assign_iff hs.1]
    simp [not_lt.1 h2]

example : Sizes.resize [(1, 2), (3, 4)] 3 0 = .ok [(1, 2), (3, 0)] ∧ Sizes.resize [(1, 2)] 1 (-1) = .error .dimension := ⟨rfl, rfl⟩

/-- **C01** (erasing): `erase` accepts an existing label, and removes it only. -/
theorem C01_erase_iff (s r : Sizes) (d : Dim) (hs : WF s) :
    Sizes.erase s d = .ok r ↔ d ∈ labels s ∧ r = s.filter (fun p => decide (p.1 ≠ d)) := by
  constructor
  · intro h
    have hm := (erase_ok h).2
    rw [erase_eq_filter hs.1 hm] at h
    exact ⟨hm, (Except.ok.inj h).symm⟩
  · rintro ⟨hm, rfl⟩
    exact erase_eq_filter hs.1 hm

example : Sizes.erase [(1, 2), (3, 4), (5, 6)] 3 = .ok [(1, 2), (5, 6)] := rfl

private theorem foldlM_addInner_iff : ∀ (l : List (Dim × Int)) (acc r : Dims), l.foldlM (fun s p => Dims.addInner s p.1 p.2) acc = .ok r ↔
    (l.map Prod.fst).Nodup ∧ Dim.invalid ∉ l.map Prod.fst ∧ (∀ d ∈ l.map Prod.fst, d ∉ labels acc) ∧ (∀ p ∈ l, 0 ≤ p.2) ∧ r = acc ++ l := by
  intro l
  induction l with
  | nil => intro acc r; simp [List.foldlM, pure, Except.pure, eq_comm]
  | cons p l ih =>
    intro acc r
    simp only [List.foldlM_cons, bind, Except.bind]
    cases ha : Dims.addInner acc p.1 p.2 with
    | error e =>
      simp only [reduceCtorEq, false_iff]
      rintro ⟨-, h2, h3, h4, -⟩
      have := (C01_add_iff acc (acc ++ [(p.1, p.2)]) p.1 p.2).2.2
        ⟨fun h => h2 (by simp [h]), h4 p (by simp), h3 p.1 (by simp), rfl⟩
      rw [ha] at this; cases this
    | ok t =>
      obtain ⟨h1, h2, h3, rfl⟩ := (C01_add_iff _ _ _ _).2.1 ha
      simp only [ih]
      constructor
      · rintro ⟨q1, q2, q3, q4, q5⟩
        refine ⟨?_, ?_, ?_, ?_, by rw [q5]; simp⟩
        · rw [List.map_cons, List.nodup_cons]
          refine ⟨fun hc => q3 _ hc (by simp [labels]), q1⟩
        · rw [List.map_cons, List.mem_cons]
          rintro (hc | hc)
          · exact h1 hc.symm
          · exact q2 hc
        · intro d hd
          rw [List.map_cons, List.mem_cons] at hd
          rcases hd with rfl | hd
          · exact h3
          · intro hc
            exact q3 d hd (by simp only [labels_append, List.mem_append]; exact .inl hc)
        · intro p' hp'
          rcases List.mem_cons.1 hp' with rfl | hp'
          · exact h2
          · exact q4 _ hp'
      · rintro ⟨q1, q2, q3, q4, q5⟩
        rw [List.map_cons, List.nodup_cons] at q1
        refine ⟨q1.2, fun hc => q2 (by simp only [List.map_cons, List.mem_cons]; exact .inr hc), ?_,
          fun p' hp' => q4 _ (by simp [hp']), by rw [q5]; simp⟩
        intro d hd hc
        simp only [labels_append, List.mem_append] at hc
        rcases hc with hc | hc
        · exact q3 d (by simp only [List.map_cons, List.mem_cons]; exact .inr hd) hc
        · simp [labels] at hc
          exact q1.1 (hc ▸ hd)

/-- **C01** (construction): labels and shape are accepted exactly if there are as many of one as of the other, the labels are valid and different
and no extent is negative; the result has them in that order. -/
theorem C01_of_labels_iff (ls : List Dim) (shape : List Int) (r : Dims) :
    Dims.ofLabels ls shape = .ok r ↔
      ls.length = shape.length ∧ ls.Nodup ∧ Dim.invalid ∉ ls ∧ (∀ x ∈ shape, 0 ≤ x) ∧ r = ls.zip shape := by
  unfold Dims.ofLabels
  by_cases hl : ls.length = shape.length
  · rw [if_neg (by simp [hl]), foldlM_addInner_iff]
    have h1 : (ls.zip shape).map Prod.fst = ls := List.map_fst_zip (le_of_eq hl)
    have h2 : (ls.zip shape).map Prod.snd = shape := List.map_snd_zip (le_of_eq hl.symm)
    have h3 : (∀ p ∈ ls.zip shape, 0 ≤ p.2) ↔ ∀ x ∈ shape, 0 ≤ x := by
      conv_rhs => rw [← h2]
      simp only [List.mem_map]
      exact ⟨fun h x ⟨p, hp, hx⟩ => hx ▸ h p hp, fun h p hp => h _ ⟨p, hp, rfl⟩⟩
    rw [h1, h3]
    simp [hl]
  · simp [hl]

example : Dims.ofLabels [3, 1] [0, 2] = .ok [(3, 0), (1, 2)] ∧ Dims.ofLabels [3, 3] [1, 2] = .error .dimension ∧
    Dims.ofLabels [3] [1, 2] = .error .dimension := ⟨rfl, rfl, rfl⟩

/-- **C01** (construction): a list of labels and extents is accepted exactly if the labels are valid and different and no extent is negative; the result is that list. -/
theorem C01_of_list_iff (l : List (Dim × Int)) (r : Dims) :
    Dims.ofList l = .ok r ↔ (l.map Prod.fst).Nodup ∧ Dim.invalid ∉ l.map Prod.fst ∧ (∀ p ∈ l, 0 ≤ p.2) ∧ r = l := by
  unfold Dims.ofList
  rw [foldlM_addInner_iff]
  simp [labels]

example : Dims.ofList [(3, 0), (1, 2)] = .ok [(3, 0), (1, 2)] ∧ Dims.ofList [(3, 1), (3, 2)] = .error .dimension ∧ Dims.ofList [(3, -1)] = .error .dimension := ⟨rfl, rfl, rfl⟩

/-- **C01** (offset): the offset of a dimension is the number of elements in the dimensions after it. -/
theorem C01_offset (pre post : Dims) (d : Dim) (n : Int) (h : d ∉ labels pre) : Dims.offset (pre ++ (d, n) :: post) d = .ok (Dims.volume post) := by
  induction pre with
  | nil => simp [Dims.offset, Dims.volume]
  | cons p pre ih =>
    obtain ⟨k, m⟩ := p
    simp only [labels, List.map_cons, List.mem_cons, not_or] at h
    simp only [List.cons_append, Dims.offset, if_neg (Ne.symm h.1)]
    exact ih h.2

example : Dims.offset [(1, 2), (2, 3), (3, 5)] 1 = .ok 15 ∧ (1 : Nat) ∉ labels [] := ⟨rfl, by simp [labels]⟩

/-- The extent along `d`, counting something without that dimension as one slice. -/
def slicesAlong (d : Dim) (s : Sizes) : Int :=
  match s.find? (fun p => decide (p.1 = d)) with
  | some p => p.2
  | none => 1

private theorem slicesAlong_at {d : Dim} : ∀ {s : Sizes}, (if Sizes.contains s d then Sizes.at? s d else .ok 1) = .ok (slicesAlong d s)
  | [] => by simp [contains, slicesAlong]
  | (k, v) :: s => by
    by_cases hk : k = d
    · have : Sizes.contains ((k, v) :: s) d = true := (contains_iff).2 (by simp [hk])
      rw [if_pos this]
      simp [at?, hk, slicesAlong]
    · have ih := slicesAlong_at (d := d) (s := s)
      have h1 : Sizes.contains ((k, v) :: s) d = Sizes.contains s d := by
        rw [Bool.eq_iff_iff, contains_iff, contains_iff]
        have : d ≠ k := fun h => hk h.symm
        simp [this]
      rw [h1]
      simp only [at?, hk, if_false, ih]
      simp [slicesAlong, hk]

private theorem mem_slicesAlong {d : Dim} {n : Int} {s : Sizes} (hs : (labels s).Nodup) (h : (d, n) ∈ s) : slicesAlong d s = n := by
  have := slicesAlong_at (d := d) (s := s)
  rw [if_pos ((contains_iff).2 (mem_labels h)), at?_of_mem hs h] at this
  exact (Except.ok.inj this).symm

private theorem slicesAlong_nonneg {d : Dim} {s : Sizes} (hs : WF s) : 0 ≤ slicesAlong d s := by
  by_cases h : d ∈ labels s
  · obtain ⟨n, hn⟩ := at?_ok_of_mem_labels h
    have := at?_ok_mem hn
    rw [mem_slicesAlong hs.1 this]
    exact hs.2 _ this
  · have := slicesAlong_at (d := d) (s := s)
    rw [if_neg (by simp [(contains_false).2 h])] at this
    rw [← Except.ok.inj this]; omega

private theorem concat2_eq_bind {a b : Sizes} {d : Dim} : Sizes.concat2 a b d =
    (if a.contains d then a.slice ⟨d, 0, -1, 1⟩ else .ok a).bind fun out => out.set d (slicesAlong d a + slicesAlong d b) := by
  have e1 := slicesAlong_at (d := d) (s := a)
  have e2 := slicesAlong_at (d := d) (s := b)
  unfold Sizes.concat2
  cases h1 : a.contains d <;> cases h2 : b.contains d <;> rw [h1] at e1 <;> rw [h2] at e2 <;>
    simp only [Bool.false_eq_true, if_false, if_true] at e1 e2
  · simp [bind, Except.bind, ← Except.ok.inj e1, ← Except.ok.inj e2]
  · simp [bind, Except.bind, ← Except.ok.inj e1, e2]
  · simp [bind, Except.bind, e1, ← Except.ok.inj e2]
  · simp [bind, Except.bind, e1, e2]

private theorem concat2_eq {a b : Sizes} {d : Dim} (ha : WF a) (hb : WF b) (hd : d ≠ Dim.invalid) (hdn : d ≠ Dim.none) :
    Sizes.concat2 a b d = if (d, 0) ∈ a then .error .slice
      else .ok (a.filter (fun p => decide (p.1 ≠ d)) ++ [(d, slicesAlong d a + slicesAlong d b)]) := by
  have h0 : 0 ≤ slicesAlong d a + slicesAlong d b := by
    have := slicesAlong_nonneg (d := d) ha
    have := slicesAlong_nonneg (d := d) hb
    omega
  have hset : ∀ s : Sizes, d ∉ labels s → Sizes.set s d (slicesAlong d a + slicesAlong d b) = .ok (s ++ [(d, slicesAlong d a + slicesAlong d b)]) := by
    intro s hs
    simp only [Sizes.set]
    rw [if_neg hd, if_neg (by omega)]
    obtain ⟨e, he⟩ := at?_error_iff.2 hs
    rw [he]
    simp [insertRight, (contains_false).2 hs]
  have hf : d ∉ labels (a.filter (fun p => decide (p.1 ≠ d))) := by simp [labels]
  by_cases hm : d ∈ labels a
  · obtain ⟨n, hn⟩ := at?_ok_of_mem_labels hm
    have hmem := at?_ok_mem hn
    have hn0 := ha.2 _ hmem
    have hne : (⟨d, 0, -1, 1⟩ : Slice) ≠ Slice.none := by intro h; injection h; simp_all
    have hz : (d, 0) ∈ a ↔ n = 0 := by
      constructor
      · intro h
        have := at?_of_mem ha.1 h
        rw [hn] at this
        exact Except.ok.inj this
      · rintro rfl; exact hmem
    rw [concat2_eq_bind]
    simp only [(contains_iff).2 hm, if_true, Sizes.slice, validSlice, hne, if_false, hn, bind, Except.bind, Slice.isRange]
    by_cases h : n = 0
    · simp [h, hz]
    · have hg : ¬((if (-1 : Int) < 0 then 0 + 1 else -1) > n) := by
        simp only at hn0
        rw [if_pos (by omega)]; omega
      rw [if_neg hg, if_neg (by rw [hz]; exact h : (d, 0) ∉ a)]
      simp only [ne_eq, not_true, decide_false, Bool.false_eq_true, if_false, erase_eq_filter ha.1 hm]
      simpa using hset _ hf
  · rw [concat2_eq_bind]
    have hz : (d, (0 : Int)) ∉ a := fun h => hm (mem_labels h)
    have hfa : a.filter (fun p => decide (p.1 ≠ d)) = a := by
      apply List.filter_eq_self.2
      intro p hp
      simp only [ne_eq, decide_eq_true_eq]
      intro hc
      exact hm (hc ▸ mem_labels hp)
    rw [hfa]
    simp [(contains_false).2 hm, bind, Except.bind, hset a hm, hz]

/-- **C43** (sizes of concatenated datasets without items): if the first has at least one slice along `d`, the sizes are those of
the first with `d` moved to the end, its extent the total number of slices, where one that does not have the dimension counts as one slice. -/
theorem C43_sizes_partial (s : Sizes) (rest : List Sizes) (d : Dim) (hs : WF s) (hr : ∀ t ∈ rest, WF t) (hd : d ≠ Dim.invalid)
    (hdn : d ≠ Dim.none) (hne : rest ≠ []) (hz : (d, 0) ∉ s) :
    Sizes.concat (s :: rest) d =
      .ok (s.filter (fun p => decide (p.1 ≠ d)) ++ [(d, ((s :: rest).map (slicesAlong d)).sum)]) := by
  have step : ∀ (rest : List Sizes) (a : Sizes), WF a → (d, 0) ∉ a → (∀ t ∈ rest, WF t) → rest ≠ [] →
      rest.foldlM (fun out x => Sizes.concat2 out x d) a =
        .ok (a.filter (fun p => decide (p.1 ≠ d)) ++ [(d, slicesAlong d a + (rest.map (slicesAlong d)).sum)]) := by
    intro rest
    induction rest with
    | nil => intro a _ _ _ h; exact absurd rfl h
    | cons b rest ih =>
      intro a ha hza hwr _
      have hb := hwr b (by simp)
      rw [List.foldlM_cons, concat2_eq ha hb hd hdn, if_neg hza]
      simp only [bind, Except.bind]
      have na := slicesAlong_nonneg (d := d) ha
      have nb := slicesAlong_nonneg (d := d) hb
      have pos : slicesAlong d a ≠ 0 := by
        intro h0
        by_cases hm : d ∈ labels a
        · obtain ⟨n, hn⟩ := at?_ok_of_mem_labels hm
          have hmem := at?_ok_mem hn
          rw [mem_slicesAlong ha.1 hmem] at h0
          exact hza (h0 ▸ hmem)
        · have := slicesAlong_at (d := d) (s := a)
          rw [if_neg (by simp [(contains_false).2 hm])] at this
          have := Except.ok.inj this
          omega
      cases rest with
      | nil => simp [List.foldlM, pure, Except.pure]
      | cons c rest =>
        have hw : WF (a.filter (fun p => decide (p.1 ≠ d)) ++ [(d, slicesAlong d a + slicesAlong d b)]) := by
          have h2 := concat2_eq ha hb hd hdn
          rw [if_neg hza] at h2
          exact concat2_WF h2 ha
        have hself : slicesAlong d (a.filter (fun p => decide (p.1 ≠ d)) ++ [(d, slicesAlong d a + slicesAlong d b)]) = slicesAlong d a + slicesAlong d b :=
          mem_slicesAlong hw.1 (by simp)
        rw [ih _ hw ?_ (fun t ht => hwr t (by simp [ht])) (by simp), hself]
        · congr 1
          rw [List.filter_append, List.filter_filter]
          simp [add_assoc]
        · intro hc
          rw [mem_slicesAlong hw.1 hc] at hself
          omega
  have := step rest s hs hz hr hne
  simpa [Sizes.concat] using this

example : Sizes.concat [[(1, 2), (2, 3)], [(2, 3)], [(1, 4), (2, 3)]] 1 = .ok [(2, 3), (1, 7)] := rfl

/-- **C43** (wrong): if the first dataset has no slices along `d`, concatenation fails, whatever the others are. -/
theorem C43_wrong_sizes_empty_first (s t : Sizes) (rest : List Sizes) (d : Dim) (hs : WF s) (ht : WF t) (hd : d ≠ Dim.invalid)
    (hdn : d ≠ Dim.none) (hz : (d, 0) ∈ s) : Sizes.concat (s :: t :: rest) d = .error .slice := by
  simp only [Sizes.concat, List.foldlM_cons, concat2_eq hs ht hd hdn, if_pos hz]
  rfl

/-- The same datasets in another order are accepted. -/
example : Sizes.concat [[(1, 0)], [(1, 2)]] 1 = .error .slice ∧ Sizes.concat [[(1, 2)], [(1, 0)]] 1 = .ok [(1, 2)] := ⟨rfl, rfl⟩

/-- **C43** (wrong): the extents of the other dims are not compared; those of the first are taken. -/
theorem C43_wrong_sizes_not_compared : Sizes.concat [[(1, 2), (2, 3)], [(1, 2), (2, 5)]] 1 = .ok [(2, 3), (1, 4)] := rfl

end Scipp.Props
