import Verif.Lemmas.MakeBinned

namespace Scipp.MakeBinned

theorem dependsOn_false (c : Coord) (ds : List Dim) : c.dependsOn ds = false ↔ c.Free ds := by
  simp [Coord.dependsOn, Coord.Free]

theorem free_append (c : Coord) (a b : List Dim) : c.Free (a ++ b) ↔ c.Free a ∧ c.Free b := by
  unfold Coord.Free
  constructor
  · intro h; exact ⟨fun d hd ha => h d hd (List.mem_append_left _ ha), fun d hd ha => h d hd (List.mem_append_right _ ha)⟩
  · rintro ⟨h1, h2⟩ d hd h; rcases List.mem_append.1 h with h | h
    · exact h1 d hd h
    · exact h2 d hd h

theorem key_nodup (keys : List Key) (hnd : (keys.map (·.dim)).Nodup) (k k' : Key) (hk : k ∈ keys) (hk' : k' ∈ keys) (e : k.dim = k'.dim) :
    k = k' := by
  induction keys with
  | nil => cases hk
  | cons a rest ih =>
    simp only [List.map_cons, List.nodup_cons] at hnd
    rcases List.mem_cons.1 hk with h1 | h1 <;> rcases List.mem_cons.1 hk' with h2 | h2
    · rw [h1, h2]
    · exact absurd (List.mem_map.2 ⟨k', h2, by rw [← e, h1]⟩) hnd.1
    · exact absurd (List.mem_map.2 ⟨k, h1, by rw [e, h2]⟩) hnd.1
    · exact ih hnd.2 h1 h2

theorem cppBin_coords (x : Arr) (hx : Named x) (keys : List Key) (erase : List Dim) (out : Arr) (h : cppBin x keys erase = .ok out) :
    Named out ∧ ∀ n c, (n, c) ∈ out.coords ↔ (∃ k ∈ keys, n = k.dim ∧ c = k.coord) ∨
      ((n, c) ∈ x.coords ∧ n ∉ keys.map (·.dim) ∧ c.Free erase ∧ c.Free (keys.map (·.dim))) := by
  have hnd := (cppBin_step x keys erase out h).nodup
  unfold cppBin at h
  split at h
  · cases h
  simp only [Except.ok.injEq] at h
  subst h
  refine ⟨?_, ?_⟩
  · unfold Named
    simp only [List.map_append, List.map_map]
    rw [List.nodup_append]
    refine ⟨hnd, hx.sublist (List.filter_sublist.map _), ?_⟩
    intro a ha b hb e
    obtain ⟨b', hb', rfl⟩ := List.mem_map.1 hb
    have := (List.mem_filter.1 hb').2
    simp only [Bool.and_eq_true, Bool.not_eq_true', List.contains_eq_mem, decide_eq_false_iff_not] at this
    exact this.1 (e ▸ ha)
  · intro n c
    simp only [List.mem_append, List.mem_map, List.mem_filter, Bool.and_eq_true, Bool.not_eq_true', List.contains_eq_mem,
      decide_eq_false_iff_not, dependsOn_false, free_append, Prod.mk.injEq]
    constructor
    · rintro (⟨k, hk, h1, h2⟩ | ⟨h1, h2, h3⟩)
      · exact Or.inl ⟨k, hk, h1.symm, h2.symm⟩
      · exact Or.inr ⟨h1, h2, h3⟩
    · rintro (⟨k, hk, h1, h2⟩ | ⟨h1, h2, h3⟩)
      · exact Or.inl ⟨k, hk, h1.symm, h2.symm⟩
      · exact Or.inr ⟨h1, h2, h3⟩

theorem assignCoords_coords : ∀ (cs : List (Dim × Coord)) (x out : Arr), Named x → (cs.map (·.1)).Nodup → assignCoords x cs = .ok out →
    Named out ∧ ∀ n c, (n, c) ∈ out.coords ↔ (n, c) ∈ cs ∨ ((n, c) ∈ x.coords ∧ n ∉ cs.map (·.1))
  | [], x, out, hx, _, h => by simp only [assignCoords, Except.ok.injEq] at h; subst h; exact ⟨hx, by simp⟩
  | (m, a) :: rest, x, out, hx, hnd, h => by
    simp only [assignCoords] at h
    simp only [List.map_cons, List.nodup_cons] at hnd
    split at h
    · rename_i y hy
      unfold setCoord at hy
      split at hy
      · simp only [Except.ok.injEq] at hy
        have hyc : y.coords = (m, a) :: x.coords.filter (fun e => e.1 != m) := by rw [← hy]
        have hyn : Named y := by
          unfold Named
          rw [hyc, List.map_cons, List.nodup_cons]
          refine ⟨?_, hx.sublist (List.filter_sublist.map _)⟩
          intro hm
          obtain ⟨b, hb, e⟩ := List.mem_map.1 hm
          have := (List.mem_filter.1 hb).2
          simp [e] at this
        obtain ⟨h1, h2⟩ := assignCoords_coords rest y out hyn hnd.2 h
        refine ⟨h1, ?_⟩
        intro n c
        rw [h2 n c, hyc]
        simp only [List.mem_cons, Prod.mk.injEq, List.mem_filter, bne_iff_ne, ne_eq, List.map_cons, not_or]
        constructor
        · rintro (h' | ⟨(h' | h'), h''⟩)
          · exact Or.inl (Or.inr h')
          · exact Or.inl (Or.inl h')
          · exact Or.inr ⟨h'.1, h'.2, h''⟩
        · rintro ((⟨rfl, rfl⟩ | h') | ⟨h', h1, h2⟩)
          · exact Or.inr ⟨Or.inl ⟨rfl, rfl⟩, hnd.1⟩
          · exact Or.inl h'
          · exact Or.inr ⟨Or.inr ⟨h', h1⟩, h2⟩
      · cases hy
    · cases h

theorem concat_coords (x : Arr) (hx : Named x) (erase : List Dim) :
    Named (concat x erase) ∧ ∀ n c, (n, c) ∈ (concat x erase).coords ↔ (n, c) ∈ x.coords ∧ c.Free erase := by
  refine ⟨hx.sublist (List.filter_sublist.map _), ?_⟩
  intro n c
  simp [concat, dependsOn_false]

theorem combine_coords (x : Arr) (hx : Named x) (keys : List Key) (erase : List Dim) (out : Arr) (hk : keys ≠ [])
    (h : combine x keys erase = .ok out) :
    Named out ∧ ∀ n c, (n, c) ∈ out.coords ↔ (∃ k ∈ keys, n = k.dim ∧ c = k.coord) ∨
      ((n, c) ∈ x.coords ∧ n ∉ keys.map (·.dim) ∧ c.Free erase) := by
  unfold combine at h
  have hne : keys.isEmpty = false := by simpa using hk
  rw [hne] at h
  simp only [Bool.false_eq_true, if_false] at h
  split at h
  · cases h
  · rename_i hc
    obtain ⟨_, h2, h3, _⟩ := (checkArgs_ok x keys).1 hc
    split at h
    · cases h
    · rename_i y hy
      obtain ⟨a1, a2⟩ := assignCoords_coords _ _ _ (by simp [Named]) (hx.sublist (List.filter_sublist.map _)) hy
      obtain ⟨b1, b2⟩ := assignCoords_coords _ _ _ a1 (by rw [List.map_map]; exact h2) h
      refine ⟨b1, ?_⟩
      intro n c
      rw [b2, a2]
      simp only [List.mem_map, Prod.mk.injEq, List.mem_filter, Bool.not_eq_true', dependsOn_false, List.not_mem_nil, false_and, or_false,
        List.map_map, Function.comp_apply]
      constructor
      · rintro (⟨k, hk, h1, h2⟩ | ⟨⟨h1, h2⟩, h3⟩)
        · exact Or.inl ⟨k, hk, h1.symm, h2.symm⟩
        · exact Or.inr ⟨h1, h3, h2⟩
      · rintro (⟨k, hk, h1, h2⟩ | ⟨h1, h2, h3⟩)
        · exact Or.inl ⟨k, hk, h1.symm, h2.symm⟩
        · exact Or.inr ⟨⟨h1, h3⟩, h2⟩

/-- The coords of the output: the keys, and others of the input which do not depend on erased dims; those which do not depend on dims of the keys
either are all there. -/
structure CoordsOf (x : Arr) (keys : List Key) (erase : List Dim) (out : Arr) : Prop where
  named : Named out
  key : ∀ k ∈ keys, (k.dim, k.coord) ∈ out.coords
  sub : ∀ n c, (n, c) ∈ out.coords → n ∉ keys.map (·.dim) → (n, c) ∈ x.coords ∧ c.Free erase
  sup : ∀ n c, (n, c) ∈ x.coords → n ∉ keys.map (·.dim) → c.Free erase → c.Free (keys.map (·.dim)) → (n, c) ∈ out.coords

theorem CoordsOf.of_cppBin {x : Arr} (hx : Named x) {keys : List Key} {erase : List Dim} {out : Arr} (h : cppBin x keys erase = .ok out) :
    CoordsOf x keys erase out := by
  obtain ⟨h1, h2⟩ := cppBin_coords x hx keys erase out h
  refine ⟨h1, fun k hk => (h2 _ _).2 (Or.inl ⟨k, hk, rfl, rfl⟩), ?_, fun n c a b d e => (h2 n c).2 (Or.inr ⟨a, b, d, e⟩)⟩
  intro n c hc hn
  rcases (h2 n c).1 hc with ⟨k, hk, rfl, _⟩ | ⟨a, _, b, _⟩
  · exact absurd (List.mem_map.2 ⟨k, hk, rfl⟩) hn
  · exact ⟨a, b⟩

theorem CoordsOf.of_combine {x : Arr} (hx : Named x) {keys : List Key} {erase : List Dim} {out : Arr} (hk : keys ≠ [])
    (h : combine x keys erase = .ok out) : CoordsOf x keys erase out := by
  obtain ⟨h1, h2⟩ := combine_coords x hx keys erase out hk h
  refine ⟨h1, fun k hk => (h2 _ _).2 (Or.inl ⟨k, hk, rfl, rfl⟩), ?_, fun n c a b d _ => (h2 n c).2 (Or.inr ⟨a, b, d⟩)⟩
  intro n c hc hn
  rcases (h2 n c).1 hc with ⟨k, hk, rfl, _⟩ | ⟨a, _, b⟩
  · exact absurd (List.mem_map.2 ⟨k, hk, rfl⟩) hn
  · exact ⟨a, b⟩

theorem CoordsOf.of_finish {x : Arr} (hx : Named x) {keys : List Key} {erase : List Dim} {out : Arr} (h : finish x keys erase = .ok out)
    (hd : x.dims ≠ []) : CoordsOf x keys erase out := by
  unfold finish at h
  have : x.dims.isEmpty = false := by simpa using hd
  rw [this] at h
  exact of_cppBin hx (by simpa using h)

theorem finish_zero {x : Arr} (hx : Named x) {keys : List Key} {erase : List Dim} {out : Arr} (h : finish x keys erase = .ok out)
    (hd : x.dims = []) : Named out ∧ ∀ n c, (n, c) ∈ out.coords ↔ (n, c) ∈ x.coords ∨ ((∃ k ∈ keys, n = k.dim ∧ c = k.coord) ∧ n ∉ x.coords.map (·.1)) := by
  unfold finish at h
  simp only [hd, List.isEmpty_nil, if_true] at h
  split at h
  · cases h
  · rename_i y hy
    obtain ⟨h1, h2⟩ := cppBin_coords _ (by simp [Named]) _ _ _ hy
    obtain ⟨h3, h4⟩ := assignCoords_coords _ _ _ h1 hx h
    refine ⟨h3, ?_⟩
    intro n c
    rw [h4, h2]
    simp

theorem step_dims_ne {x : Arr} {keys : List Key} {erase : List Dim} {out : Arr} (h : Step x keys erase out) (hk : keys ≠ []) : out.dims ≠ [] := by
  intro h0
  obtain ⟨k, ks, rfl⟩ := List.exists_cons_of_ne_nil hk
  have := h.dims.mem_iff (a := (k.dim, k.size)).2 (List.mem_append_right _ (List.mem_map.2 ⟨k, List.mem_cons_self .., rfl⟩))
  rw [h0] at this; cases this

theorem CoordsOf.of_makeDense {x : Arr} (hx : Named x) {keys : List Key} {erase : List Dim} {out : Arr} (hk : keys ≠ [])
    (hde : ∀ k ∈ keys, k.dim ∉ x.eventCoords) (h : makeDense x keys erase = .ok out) : CoordsOf x keys erase out := by
  unfold makeDense at h
  split at h
  · exact of_combine hx hk h
  · split at h
    · exact of_cppBin hx h
    · refine of_finish hx h ?_
      intro h0
      obtain ⟨k, ks, rfl⟩ := List.exists_cons_of_ne_nil hk
      exact hde k (List.mem_cons_self ..) (finish_events _ _ _ _ h h0 k (List.mem_cons_self ..))

theorem CoordsOf.trans {x y out : Arr} {l l' : List Key} {erase : List Dim} (h : CoordsOf x l erase y) (h' : CoordsOf y l' [] out)
    (hdis : ∀ a ∈ l, ∀ b ∈ l', a.dim ≠ b.dim) : CoordsOf x (l ++ l') erase out := by
  refine ⟨h'.named, ?_, ?_, ?_⟩
  · intro k hk
    rcases List.mem_append.1 hk with hk | hk
    · refine h'.sup _ _ (h.key k hk) ?_ (by intro d _ hd; cases hd) ?_
      · intro hm; obtain ⟨b, hb, e⟩ := List.mem_map.1 hm; exact hdis k hk b hb e.symm
      · intro d hd hm
        obtain ⟨b, hb, e⟩ := List.mem_map.1 hm
        simp only [Key.coord, List.mem_singleton] at hd
        subst hd
        exact hdis k hk b hb e.symm
    · exact h'.key k hk
  · intro n c hc hn
    simp only [List.map_append, List.mem_append, not_or] at hn
    exact h.sub n c (h'.sub n c hc hn.2).1 hn.1
  · intro n c hc hn he hf
    simp only [List.map_append, List.mem_append, not_or] at hn
    rw [List.map_append, free_append] at hf
    exact h'.sup n c (h.sup n c hc hn.1 he hf.1) hn.2 (by intro d _ hd; cases hd) hf.2

/-- The coords of the output, unless the coords of a single bin are set at the end. -/
theorem makeBinned_coords (x : Arr) (hx : Named x) (keys : List Key) (erase : List Dim) (out : Arr) (hk : keys ≠ [])
    (h : makeBinned x keys erase = .ok out) : (∃ keys', keys'.Perm keys ∧ CoordsOf x keys' erase out) ∨
    ((∀ d ∈ x.dims, d.1 ∈ erase) ∧ Named out ∧ ∀ n c, (n, c) ∈ out.coords ↔ ((n, c) ∈ x.coords ∧ c.Free erase) ∨
      ((∃ k ∈ keys, n = k.dim ∧ c = k.coord) ∧ ∀ c', (n, c') ∈ x.coords → ¬ c'.Free erase)) := by
  unfold makeBinned at h
  split at h
  · cases h
  split at h
  · exact Or.inl ⟨keys, .refl _, .of_combine hx hk h⟩
  split at h
  · exact Or.inl ⟨keys, .refl _, .of_cppBin hx h⟩
  split at h
  · obtain ⟨hn, hm⟩ := concat_coords x hx erase
    by_cases hd : (concat x erase).dims = []
    · right
      obtain ⟨h1, h2⟩ := finish_zero hn h hd
      refine ⟨?_, h1, ?_⟩
      · intro d hd'
        simp only [concat, List.filter_eq_nil_iff] at hd
        simpa using hd d hd'
      · intro n c
        rw [h2, hm]
        refine or_congr_right (and_congr_right fun _ => ?_)
        constructor
        · intro h3 c' hc' hf; exact h3 (List.mem_map.2 ⟨(n, c'), (hm n c').2 ⟨hc', hf⟩, rfl⟩)
        · intro h3 h4
          obtain ⟨⟨n', c'⟩, hc', rfl⟩ := List.mem_map.1 h4
          exact h3 c' ((hm _ _).1 hc').1 ((hm _ _).1 hc').2
    · left
      have hc := CoordsOf.of_finish hn h hd
      refine ⟨keys, .refl _, hc.named, hc.key, ?_, ?_⟩
      · intro n c h1 h2; exact (hm n c).1 (hc.sub n c h1 h2).1
      · intro n c h1 h2 h3 h4; exact hc.sup n c ((hm n c).2 ⟨h1, h3⟩) h2 (by intro d _ hd; cases hd) h4
  rename_i hd
  have hdne : dense x keys ≠ [] := by simpa using hd
  have hde : ∀ k ∈ dense x keys, k.dim ∉ x.eventCoords := by intro k hk'; simpa using (List.mem_filter.1 hk').2
  split at h
  · split at h
    · cases h
    · rename_i y hy
      have hs := makeDense_step x (dense x keys) erase y hdne hy
      have hc := CoordsOf.of_makeDense hx hdne hde hy
      have hf := CoordsOf.of_finish hc.named h (step_dims_ne hs hdne)
      refine Or.inl ⟨_, dense_perm x keys, ?_⟩
      rw [← second_keys x y keys erase hs]
      refine hc.trans hf ?_
      intro a ha b hb e
      have h2 : b.dim ∈ y.eventCoords := by simpa using (List.mem_filter.1 hb).2
      exact hde a ha (e ▸ ((hs.events _).1 h2).1)
  · rename_i hlen
    refine Or.inl ⟨keys, .refl _, .of_finish hx h ?_⟩
    intro h0
    obtain ⟨k, ks, e⟩ := List.exists_cons_of_ne_nil hdne
    have hkd : k ∈ dense x keys := by rw [e]; exact List.mem_cons_self ..
    exact hde k hkd (finish_events _ _ _ _ h h0 k (List.mem_filter.1 hkd).1)

end Scipp.MakeBinned
