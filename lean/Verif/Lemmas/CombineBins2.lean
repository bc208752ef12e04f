import Verif.Lemmas.CombineBins

namespace Scipp.CombineBins

variable {E Label : Type}

/-- Begin and end of all bins are in order and in the buffer. -/
def Valid (b : Binned E) : Prop := ∀ c, (b.range c).1 ≤ (b.range c).2 ∧ (b.range c).2 ≤ b.buffer.length

theorem length_content {b : Binned E} (hv : Valid b) (c : Pos) : (b.content c).length = b.size c :=
  length_slice (hv c).1 (hv c).2

theorem concatVar_content {b : Binned E} (hv : Valid b) {erase : List Dim} {p : Packed E} (h : concatVar b erase = .ok p) :
    p.shape = kept b erase ∧ p.ranges.length = (positions (kept b erase)).length ∧
      ∀ (k : Nat) (u : Pos), (positions (kept b erase))[k]? = some u →
        p.content k = (positions (erased b erase)).flatMap (fun v => b.content (join erase u v)) := by
  unfold concatVar at h
  split_ifs at h with hall
  have h := Except.ok.inj h
  subst h
  refine ⟨rfl, ?_, ?_⟩
  · simp [length_withSizes, kept]
  intro k u hu
  have hlab : (erased b erase).map (·.1) = erase := by simp [erased, List.map_map, Function.comp_def]
  have hdisj : ∀ e ∈ (kept b erase).map (·.1), e ∉ (erased b erase).map (·.1) := by
    intro e he
    rw [hlab]
    simp only [kept, List.mem_map, List.mem_filter] at he
    obtain ⟨q, ⟨_, hq⟩, rfl⟩ := he
    simpa using hq
  set L := (positions (kept b erase)).map (fun u => (positions (erased b erase)).flatMap (fun v => b.content (join erase u v))) with hL
  have hbuf : (positions (kept b erase ++ erased b erase)).flatMap b.content = L.flatten := by
    rw [positions_append _ _ hdisj, hlab, List.flatMap_assoc, hL, ← List.flatMap_def]
    congr 1
    funext u
    rw [List.flatMap_map]
  have hsz : (positions (kept b erase)).map (fun u => ((positions (erased b erase)).map (fun v => b.size (join erase u v))).sum) =
      L.map List.length := by
    rw [hL, List.map_map]
    refine List.map_congr_left (fun u _ => ?_)
    simp only [Function.comp, List.length_flatMap, length_content hv]
  have := withSizes_content (L := L) (k := k) (x := (positions (erased b erase)).flatMap (fun v => b.content (join erase u v)))
    (by rw [hL, List.getElem?_map, hu]; rfl)
  rw [← this, ← hbuf, ← hsz]
  rfl

theorem masked_iff {order : List Dim} {masks : List Mask} {erase : List Dim} {m : Mask}
    (h : irreducibleMask order masks erase = some m) (c : Pos) : m.masked c = true ↔ Hidden masks erase c := by
  unfold irreducibleMask at h
  dsimp only at h
  split_ifs at h
  cases h
  simp only [List.any_eq_true, List.mem_filter, Hidden, List.contains_iff_mem]
  constructor
  · rintro ⟨m, ⟨h1, h2⟩, h3⟩; exact ⟨m, h1, h2, h3⟩
  · rintro ⟨m, h1, h2, h3⟩; exact ⟨m, ⟨h1, h2⟩, h3⟩

theorem not_hidden_of_none {order : List Dim} {masks : List Mask} {erase : List Dim}
    (h : irreducibleMask order masks erase = none) (c : Pos) : ¬ Hidden masks erase c := by
  unfold irreducibleMask at h
  dsimp only at h
  split_ifs at h with h1
  rintro ⟨m, hm, hd, _⟩
  rw [List.isEmpty_iff, List.filter_eq_nil_iff] at h1
  refine h1 m hm ?_
  simpa [List.any_eq_true, List.contains_iff_mem] using hd

/-- A 1-D irreducible mask depends on one dim only, which is one of the erased ones. -/
theorem irreducible_single {order : List Dim} {masks : List Mask} {erase : List Dim} {m : Mask} {d : Dim}
    (h : irreducibleMask order masks erase = some m) (hd : m.dims = [d]) (hloc : ∀ m ∈ masks, m.Local)
    (hsub : ∀ m ∈ masks, ∀ e ∈ m.dims, e ∈ order) :
    d ∈ erase ∧ d ∈ order ∧ ∀ c c' : Pos, c d = c' d → m.masked c = m.masked c' := by
  unfold irreducibleMask at h
  dsimp only at h
  split_ifs at h with hne
  cases h
  dsimp only at hd ⊢
  have hmem : ∀ e, (∃ m ∈ masks.filter (fun m => m.dims.any (fun d => erase.contains d)), e ∈ m.dims) → e = d := by
    rintro e ⟨m, hm, he⟩
    have : e ∈ order.filter (fun d => (masks.filter (fun m => m.dims.any (fun d => erase.contains d))).any (fun m => m.dims.contains d)) := by
      rw [List.mem_filter]
      exact ⟨hsub m (List.mem_filter.1 hm).1 e he, by rw [List.any_eq_true]; exact ⟨m, hm, by simpa using he⟩⟩
    rw [hd] at this
    simpa using this
  have hdo : d ∈ order := by
    have : d ∈ order.filter (fun d => (masks.filter (fun m => m.dims.any (fun d => erase.contains d))).any (fun m => m.dims.contains d)) := by
      rw [hd]; exact List.mem_singleton_self d
    exact (List.mem_filter.1 this).1
  refine ⟨?_, hdo, ?_⟩
  · rw [List.isEmpty_iff] at hne
    obtain ⟨m, hm⟩ := List.exists_mem_of_ne_nil _ hne
    obtain ⟨_, h2⟩ := List.mem_filter.1 hm
    rw [List.any_eq_true] at h2
    obtain ⟨e, he, h3⟩ := h2
    rw [← hmem e ⟨m, hm, he⟩]
    simpa using h3
  · intro c c' hcc
    rw [Bool.eq_iff_iff, List.any_eq_true, List.any_eq_true]
    have : ∀ m ∈ masks.filter (fun m => m.dims.any (fun d => erase.contains d)), m.masked c = m.masked c' := by
      intro m hm
      refine hloc m (List.mem_filter.1 hm).1 c c' (fun e he => ?_)
      rw [hmem e ⟨m, hm, he⟩]; exact hcc
    constructor
    · rintro ⟨m, hm, h⟩; exact ⟨m, hm, by rw [← this m hm]; exact h⟩
    · rintro ⟨m, hm, h⟩; exact ⟨m, hm, by rw [this m hm]; exact h⟩

theorem valid_hideMasked {b : Binned E} (hv : Valid b) (mask : Option Mask) : Valid (hideMasked b mask) := by
  intro c
  unfold hideMasked
  split
  · exact hv c
  · split
    · exact hv _
    · dsimp only
      split_ifs
      · exact ⟨Nat.le_refl _, Nat.le_trans (hv c).1 (hv c).2⟩
      · exact hv c

theorem sizeOf_mem {s : Shape} (hnd : (s.map (·.1)).Nodup) {d : Dim} {n : Nat} (h : (d, n) ∈ s) : sizeOf s d = n := by
  induction s with
  | nil => simp at h
  | cons p ps ih =>
    simp only [List.map_cons, List.nodup_cons] at hnd
    rcases List.mem_cons.1 h with h | h
    · subst h; simp [sizeOf]
    · have hne : p.1 ≠ d := fun he => hnd.1 (he ▸ List.mem_map.2 ⟨_, h, rfl⟩)
      have := ih hnd.2 h
      simpa [sizeOf, List.find?_cons, hne] using this

theorem sizeOf_resize {s : Shape} {d : Dim} {k : Nat} (hd : d ∈ s.map (·.1)) (e : Dim) :
    sizeOf (s.map (fun p => if p.1 = d then (d, k) else p)) e = if e = d then k else sizeOf s e := by
  induction s with
  | nil => simp at hd
  | cons p ps ih =>
    obtain ⟨a, n⟩ := p
    by_cases ha : a = d
    · subst ha
      by_cases he : e = a
      · subst he; simp [sizeOf]
      · have hne : ∀ l : Shape, sizeOf (l.map (fun p => if p.1 = a then (a, k) else p)) e = sizeOf l e := by
          intro l
          induction l with
          | nil => rfl
          | cons q qs ihq =>
            by_cases hq : q.1 = a
            · have h1 : q.1 ≠ e := fun h => he (h.symm.trans hq)
              have h2 : a ≠ e := fun h => he h.symm
              simpa [sizeOf, List.find?_cons, hq, h1, h2] using ihq
            · by_cases hqe : q.1 = e
              · simp [sizeOf, List.find?_cons, hq, hqe, he]
              · simpa [sizeOf, List.find?_cons, hq, hqe] using ihq
        rw [hne, if_neg he]
    · have hd' : d ∈ ps.map (·.1) := by
        simp only [List.map_cons, List.mem_cons] at hd
        rcases hd with h | h
        · exact absurd h.symm ha
        · exact h
      by_cases hae : a = e
      · subst hae; simp [sizeOf, ha]
      · have := ih hd'
        simpa [sizeOf, List.find?_cons, ha, hae] using this

end Scipp.CombineBins
