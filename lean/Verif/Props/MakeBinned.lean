import Verif.Lemmas.MakeBinned4

namespace Scipp.Props
open Scipp Scipp.MakeBinned

/-- C117: On every route `bin` and `group` put into the bin at a position exactly the events that belong there: those of all input bins at that
position along the dims which remain, with coords in the bins or groups given by the keys. A coord of the events is used if there is one, else
the coord of the input bins. -/
theorem C117_contents (x : Arr) (hx : Named x) (keys : List Key) (erase : List Dim) (out : Arr) (h : makeBinned x keys erase = .ok out) (p : Pos) :
    (contents out p).Perm (expected x keys erase p) := by
  by_cases hk : keys = []
  · subst hk
    have : makeBinned x [] erase = .ok (concat x erase) := by simp [makeBinned, canOperateOnBins, combine]
    rw [this] at h
    cases h
    rw [concat_contents]
  · obtain ⟨keys', hp, hs⟩ := makeBinned_step x keys erase out hk h
    rw [step_contents x hx keys' erase out hs p, expected_perm x keys keys' hp]

/-- C117: The dims of the output are those of the input which are neither erased nor given by a key, and one for every key. -/
theorem C117_dims (x : Arr) (keys : List Key) (erase : List Dim) (out : Arr) (hk : keys ≠ []) (h : makeBinned x keys erase = .ok out) :
    (∀ d n, (d, n) ∈ out.dims ↔ ((d, n) ∈ x.dims ∧ d ∉ erase ∧ ∀ k ∈ keys, k.dim ≠ d) ∨ ∃ k ∈ keys, d = k.dim ∧ n = k.size) ∧
    ((x.dims.map (·.1)).Nodup → (out.dims.map (·.1)).Nodup) := by
  obtain ⟨keys', hp, hs⟩ := makeBinned_step x keys erase out hk h
  refine ⟨?_, ?_⟩
  · intro d n
    rw [hs.dims.mem_iff, List.mem_append, List.mem_filter]
    simp only [Bool.and_eq_true, Bool.not_eq_true', List.contains_eq_mem, decide_eq_false_iff_not, (hp.map _).mem_iff, List.mem_map, not_exists,
      not_and, Prod.mk.injEq, hp.mem_iff]
    refine or_congr_right ?_
    exact ⟨fun ⟨k, h1, h2⟩ => ⟨k, h1, h2.1.symm, h2.2.symm⟩, fun ⟨k, h1, h2⟩ => ⟨k, h1, h2.1.symm, h2.2.symm⟩⟩
  · intro hd
    rw [(hs.dims.map _).nodup_iff, List.map_append, List.map_map, List.nodup_append]
    refine ⟨hd.sublist (List.filter_sublist.map _), hs.nodup, ?_⟩
    intro a ha b hb e
    obtain ⟨a', ha', rfl⟩ := List.mem_map.1 ha
    have := (List.mem_filter.1 ha').2
    simp only [Bool.and_eq_true, Bool.not_eq_true', List.contains_eq_mem, decide_eq_false_iff_not] at this
    exact this.2 (e ▸ hb)

/-- C117 in part: The coord of every new dim is the key itself, if some dim of the input remains or if no coord of that name does. What is missing
fails: see `C117_wrong_edges`, `C117_wrong_points`, `C117_wrong_error`, `C117_wrong_scalar`. -/
theorem C117_key_coords_partial (x : Arr) (hx : Named x) (keys : List Key) (erase : List Dim) (out : Arr)
    (h : makeBinned x keys erase = .ok out) (k : Key) (hk : k ∈ keys)
    (hr : (∃ d ∈ x.dims, d.1 ∉ erase) ∨ ∀ c, (k.dim, c) ∈ x.coords → ¬ c.Free erase) (c : Coord) :
    (k.dim, c) ∈ out.coords ↔ c = k.coord := by
  have hne : keys ≠ [] := by rintro rfl; cases hk
  have key : Named out ∧ (k.dim, k.coord) ∈ out.coords := by
    rcases makeBinned_coords x hx keys erase out hne h with ⟨keys', hp, hc⟩ | ⟨hall, hn, hc⟩
    · exact ⟨hc.named, hc.key k (hp.mem_iff.2 hk)⟩
    · refine ⟨hn, (hc _ _).2 (Or.inr ⟨⟨k, hk, rfl, rfl⟩, ?_⟩)⟩
      rcases hr with ⟨d, hd, hd'⟩ | hr
      · exact absurd (hall d hd) hd'
      · exact hr
  constructor
  · intro hc; exact named_unique key.1 hc key.2
  · rintro rfl; exact key.2

/-- C117: The other coords of the output are those of the input which do not depend on an erased dim, if none depends on a dim of the keys. -/
theorem C117_other_coords (x : Arr) (hx : Named x) (keys : List Key) (erase : List Dim) (out : Arr) (hne : keys ≠ [])
    (h : makeBinned x keys erase = .ok out) (hf : ∀ n c, (n, c) ∈ x.coords → c.Free (keys.map (·.dim))) (n : Dim) (hn : ∀ k ∈ keys, k.dim ≠ n)
    (c : Coord) : (n, c) ∈ out.coords ↔ (n, c) ∈ x.coords ∧ c.Free erase := by
  rcases makeBinned_coords x hx keys erase out hne h with ⟨keys', hp, hc⟩ | ⟨_, _, hc⟩
  · have hn' : n ∉ keys'.map (·.dim) := by
      intro hm
      obtain ⟨k, hk, e⟩ := List.mem_map.1 hm
      exact hn k (hp.mem_iff.1 hk) e
    refine ⟨fun h1 => hc.sub n c h1 hn', fun ⟨h1, h2⟩ => hc.sup n c h1 hn' h2 ?_⟩
    intro d hd hm
    exact hf n c h1 d hd ((hp.map _).mem_iff.1 hm)
  · rw [hc]
    constructor
    · rintro (h1 | ⟨⟨k, hk, e, _⟩, _⟩)
      · exact h1
      · exact absurd e.symm (hn k hk)
    · exact Or.inl

/-- C117: `bin` succeeds if the keys are valid and have dims of their own, their coords exist for every bin or event, and the coords of the bins
fit the data. -/
theorem C117_succeeds (x : Arr) (keys : List Key) (erase : List Dim) (hk : keys ≠ []) (hd : (x.dims.map (·.1)).Nodup)
    (hnd : (keys.map (·.dim)).Nodup) (hnew : ∀ k ∈ keys, ∀ d ∈ x.dims, d.1 ≠ k.dim) (her : ∀ d ∈ erase, d ∈ x.dims.map (·.1))
    (hedges : ∀ k ∈ keys, k.edges = true → 2 ≤ k.values.length ∧ ∀ i, i + 1 < k.values.length → k.values.getD i 0 ≤ k.values.getD (i + 1) 0)
    (hgroups : ∀ k ∈ keys, k.edges = false → k.values.Nodup)
    (hcoord : ∀ k ∈ keys, k.dim ∈ x.eventCoords ∨ ∃ c, (k.dim, c) ∈ x.coords ∧ ∀ d ∈ c.dims, d ∈ x.dims) (hx : Named x)
    (hfit : ∀ c ∈ x.coords, ∀ d ∈ c.2.dims, ∃ n, (d.1, n) ∈ x.dims ∧ (d.2 = n ∨ d.2 = n + 1)) :
    ∃ out, makeBinned x keys erase = .ok out := by
  refine makeBinned_ok x keys erase hk hd hnd ?_ ?_ hfit ?_ ?_ ?_
  · intro k hk'
    unfold Key.check
    cases he : k.edges
    · simp [hgroups k hk' he]
    · obtain ⟨h1, h2⟩ := hedges k hk' he
      have hasc : ∀ l : List ℚ, (∀ i, i + 1 < l.length → l.getD i 0 ≤ l.getD (i + 1) 0) → ascending l = true := by
        intro l
        induction l with
        | nil => intro _; rfl
        | cons a rest ih =>
          intro h
          cases rest with
          | nil => rfl
          | cons b rest =>
            simp only [ascending, Bool.and_eq_true, decide_eq_true_eq]
            refine ⟨by simpa using h 0 (by simp), ih ?_⟩
            intro i hi
            have := h (i + 1) (by simpa using hi)
            simpa using this
      simp [Nat.not_lt.2 h1, hasc k.values h2]
  · intro k hk'
    unfold Arr.checkCoord
    rcases hcoord k hk' with h1 | ⟨c, hc, hcd⟩
    · simp [h1]
    · split
      · rfl
      · have : x.coord? k.dim = some c := (find_name _ hx _ _).2 hc
        rw [this]
        dsimp only
        rw [if_pos]
        rw [List.all_eq_true]
        intro d hdm
        rw [beq_iff_eq]
        exact (size_iff x hd _ _).2 (hcd d hdm)
  · intro k hk' hm
    obtain ⟨d, hd', e⟩ := List.mem_map.1 hm
    exact hnew k hk' d hd' e
  · intro k hk' hm
    obtain ⟨d, hd', e⟩ := List.mem_map.1 (her _ hm)
    exact hnew k hk' d hd' e
  · by_cases h0 : x.dims = []
    · right
      cases erase with
      | nil => rfl
      | cons d ds => have := her d (List.mem_cons_self ..); rw [h0] at this; cases this
    · exact Or.inl h0

/-- C117 in part: `hist` with any number of keys gives in every bin the sum of the weights of all events that belong there, and has the dims which
remain and one for every key. The coord of the last key is one of the events, or it depends on a dim which is summed over or which has its name.
What is missing fails: see `C117_wrong_dim`. -/
theorem C117_hist_partial (x : Arr) (hx : Named x) (first : List Key) (last : Key) (dim : Option (List Dim)) (out : Hist)
    (h : hist x first last dim = .ok out) (hedges : ∀ k ∈ first, k.edges = true) (hnd : ((first ++ [last]).map (·.dim)).Nodup)
    (hloc : ∀ c, (last.dim, c) ∈ x.coords → c.Local ∧ c.Free (first.map (·.dim))) (erase : List Dim)
    (her : erase = replacedDims x ((first ++ [last]).map (·.dim)) dim)
    (hdep : last.dim ∈ x.eventCoords ∨ ∃ c, (last.dim, c) ∈ x.coords ∧ ∃ d ∈ c.dims, d.1 ∈ erase ∨ d.1 = last.dim) :
    (∀ p, out.value p = ((expected x (first ++ [last]) erase p).map Event.weight).sum) ∧
    ∀ d n, (d, n) ∈ out.dims ↔ ((d, n) ∈ x.dims ∧ d ∉ erase ∧ ∀ k ∈ first ++ [last], k.dim ≠ d) ∨ ∃ k ∈ first ++ [last], d = k.dim ∧ n = k.size := by
  obtain ⟨h1, h2⟩ := hist_result x hx first last dim out h hedges hnd hloc erase her hdep
  refine ⟨h1, ?_⟩
  intro d n
  rw [h2.mem_iff, List.mem_append, List.mem_filter]
  simp only [Bool.and_eq_true, Bool.not_eq_true', List.contains_eq_mem, decide_eq_false_iff_not]
  refine or_congr ?_ ?_
  · refine and_congr_right fun _ => and_congr_right fun _ => ?_
    rw [List.mem_map]
    exact ⟨fun h k hk e => h ⟨k, hk, e⟩, fun h ⟨k, hk, e⟩ => h k hk e⟩
  · rw [List.mem_map]
    constructor
    · rintro ⟨k, hk, e⟩; cases e; exact ⟨k, hk, rfl, rfl⟩
    · rintro ⟨k, hk, rfl, rfl⟩; exact ⟨k, hk, rfl⟩

/-- C117: The dims that are replaced: those asked for, or else those of the coords of the bins named by the keys; never a dim of a key. -/
theorem C117_replaced (x : Arr) (hx : Named x) (keys : List Dim) (dim : Option (List Dim)) (d : Dim) :
    d ∈ replacedDims x keys dim ↔ d ∈ x.dims.map (·.1) ∧ d ∉ keys ∧
      ((∃ ds, dim = some ds ∧ d ∈ ds) ∨ (dim = none ∧ ∃ n ∈ keys, ∃ c, (n, c) ∈ x.coords ∧ d ∈ c.dims.map (·.1))) := by
  unfold replacedDims Arr.labels
  simp only [List.mem_filter, Bool.and_eq_true, Bool.not_eq_true', List.contains_eq_mem, decide_eq_false_iff_not, decide_eq_true_eq]
  refine and_congr_right fun _ => ?_
  rw [and_comm]
  refine and_congr_right fun _ => ?_
  cases dim with
  | some ds => simp
  | none =>
    simp only [reduceCtorEq, false_and, exists_false, false_or, true_and, List.mem_flatMap]
    refine exists_congr fun n => and_congr_right fun _ => ?_
    constructor
    · intro h
      cases hc : x.coord? n with
      | none => rw [hc] at h; simp at h
      | some c => rw [hc] at h; exact ⟨c, (find_name _ hx _ _).1 hc, by simpa using h⟩
    · rintro ⟨c, hc, h⟩
      have : x.coord? n = some c := (find_name _ hx _ _).2 hc
      rw [this]; simpa using h

/-! Binned data with dims 1 (two bins) and 4 (two bins), a coord 3 along dim 1, and events with a coord 2. -/

private def c117x : Arr :=
  ⟨[(1, 2), (4, 2)], [(3, ⟨[(1, 2)], fun p => p 1⟩), (5, ⟨[(4, 2)], fun p => p 4⟩)], [2],
    [(fun _ => 0, ⟨1, fun _ => 1 / 2⟩), (fun d => if d = 1 then 1 else 0, ⟨2, fun _ => 3 / 2⟩), (fun _ => 1, ⟨4, fun _ => 1 / 2⟩),
     (fun d => if d = 4 then 1 else 0, ⟨8, fun _ => 5⟩)]⟩

private def c117e2 : Key := ⟨2, [0, 1, 2], true⟩
private def c117e3 : Key := ⟨3, [0, 1, 2], true⟩
private def c117g3 : Key := ⟨3, [1, 0], false⟩

private theorem c117named : Named c117x := by unfold Named; decide

/-- The weights of the events in the bins with indices `i` and `j` along dims 2 and 3. -/
private def c117w (r : Except Err Arr) (i j l : Nat) : Option (List ℚ) :=
  r.toOption.map (fun out => (contents out (fun d => if d = 2 then i else if d = 3 then j else l)).map (·.weight))

/-- In two steps: coord 3 is one of the bins, coord 2 one of the events. -/
example : [c117w (makeBinned c117x [c117e2, c117g3] [1]) 0 1 0, c117w (makeBinned c117x [c117e2, c117g3] [1]) 1 0 0,
    c117w (makeBinned c117x [c117e2, c117g3] [1]) 0 0 1, c117w (makeBinned c117x [c117e2, c117g3] [1]) 0 1 1] =
    [some [1], some [2], some [4], some []] := by decide +kernel
/-- Existing bins are concatenated before. -/
example : [c117w (makeBinned c117x [c117e2] [1, 4]) 0 0 0, c117w (makeBinned c117x [c117e2] [1, 4]) 1 0 0] = [some [1, 4], some [2]] := by decide +kernel
/-- Bins are combined. -/
example : [c117w (makeBinned c117x [c117e3] [1]) 0 0 0, c117w (makeBinned c117x [c117e3] [1]) 0 1 1] = [some [1], some [4]] := by decide +kernel

private theorem c117ok : ∃ out, makeBinned c117x [c117e2, c117g3] [1] = .ok out :=
  C117_succeeds c117x [c117e2, c117g3] [1] (by decide) (by decide) (by decide) (by decide) (by decide)
    (by intro k hk he; simp only [List.mem_cons, List.not_mem_nil, or_false] at hk
        rcases hk with rfl | rfl
        · refine ⟨by decide, ?_⟩
          intro i hi
          have : i = 0 ∨ i = 1 := by simp [c117e2] at hi; omega
          rcases this with rfl | rfl <;> decide +kernel
        · cases he)
    (by intro k hk he; simp only [List.mem_cons, List.not_mem_nil, or_false] at hk
        rcases hk with rfl | rfl
        · cases he
        · decide +kernel)
    (by intro k hk; simp only [List.mem_cons, List.not_mem_nil, or_false] at hk
        rcases hk with rfl | rfl
        · left; decide
        · exact Or.inr ⟨_, List.mem_cons_self .., by decide⟩)
    c117named
    (by intro c hc d hd; simp only [c117x, List.mem_cons, List.not_mem_nil, or_false] at hc
        rcases hc with rfl | rfl <;> simp only [List.mem_cons, List.not_mem_nil, or_false] at hd <;> subst hd
        · exact ⟨2, by decide, Or.inl rfl⟩
        · exact ⟨2, by decide, Or.inl rfl⟩)

example : ∃ out, makeBinned c117x [c117e2, c117g3] [1] = .ok out ∧ (∀ p, (contents out p).Perm (expected c117x [c117e2, c117g3] [1] p)) ∧
    (2, c117e2.coord) ∈ out.coords ∧ (4, 2) ∈ out.dims ∧ (3, 2) ∈ out.dims ∧ ∀ n, (1, n) ∉ out.dims := by
  obtain ⟨out, h⟩ := c117ok
  refine ⟨out, h, C117_contents c117x c117named _ _ out h, ?_, ?_, ?_, ?_⟩
  · exact (C117_key_coords_partial c117x c117named _ _ out h c117e2 (by simp) (Or.inl ⟨(4, 2), by decide, by decide⟩) _).2 rfl
  · exact ((C117_dims c117x _ _ out (by decide) h).1 4 2).2 (Or.inl (by decide))
  · exact ((C117_dims c117x _ _ out (by decide) h).1 3 2).2 (Or.inr ⟨c117g3, by simp, rfl, rfl⟩)
  · intro n hn
    rcases ((C117_dims c117x _ _ out (by decide) h).1 1 n).1 hn with h' | ⟨k, hk, e, _⟩
    · exact h'.2.1 (by decide)
    · simp only [List.mem_cons, List.not_mem_nil, or_false] at hk
      rcases hk with rfl | rfl <;> cases e

example : ∃ out c, makeBinned c117x [c117e2, c117g3] [1] = .ok out ∧ (5, c) ∈ out.coords := by
  obtain ⟨out, h⟩ := c117ok
  refine ⟨out, ⟨[(4, 2)], fun p => p 4⟩, h, ?_⟩
  refine (C117_other_coords c117x c117named _ _ out (by decide) h ?_ 5 (by decide) _).2 ⟨by simp [c117x], ?_⟩
  · intro n c hc d hd
    simp only [c117x, List.mem_cons, List.not_mem_nil, or_false, Prod.mk.injEq] at hc
    rcases hc with ⟨rfl, rfl⟩ | ⟨rfl, rfl⟩ <;> simp only [List.mem_cons, List.not_mem_nil, or_false] at hd <;> subst hd <;> decide
  · intro d hd
    simp only [List.mem_cons, List.not_mem_nil, or_false] at hd
    subst hd; decide

/-- `hist(x=…, t=…)`: coord 2 of the events and coord 3 of the bins. -/
example : ((hist c117x [c117e2] c117e3 none).toOption.map (fun h => (h.dims, [h.value (fun _ => 0), h.value (fun d => if d = 2 ∨ d = 3 then 1 else 0),
    h.value (fun d => if d = 2 then 0 else 1)]))) = some ([(4, 2), (2, 2), (3, 2)], [1, 2, 4]) := by decide +kernel
/-- The other order. -/
example : ((hist c117x [c117e3] c117e2 none).toOption.map (fun h => (h.dims, [h.value (fun _ => 0), h.value (fun d => if d = 2 ∨ d = 3 then 1 else 0),
    h.value (fun d => if d = 2 then 0 else 1)]))) = some ([(4, 2), (3, 2), (2, 2)], [1, 2, 4]) := by decide +kernel

example (out : Hist) (h : hist c117x [c117e2] c117e3 none = .ok out) := C117_hist_partial c117x c117named [c117e2] c117e3 none out h
  (by decide) (by decide)
  (by
    intro c hc
    simp only [c117x, List.mem_cons, List.not_mem_nil, or_false, Prod.mk.injEq, c117e3] at hc
    rcases hc with ⟨_, rfl⟩ | ⟨e, _⟩
    · refine ⟨?_, ?_⟩
      · intro p q h'; simp [h' (1, 2) (by simp)]
      · intro d hd
        simp only [List.mem_cons, List.not_mem_nil, or_false] at hd
        subst hd; decide
    · cases e) [1] (by decide)
  (Or.inr ⟨_, List.mem_cons_self .., (1, 2), by decide, Or.inl (by decide)⟩)

example : ∀ d, d ∈ replacedDims c117x [2, 3] none ↔ d = 1 := by
  intro d
  have : replacedDims c117x [2, 3] none = [1] := by decide
  rw [this, List.mem_singleton]
example := C117_replaced c117x c117named [2, 3] none 1

/-! After taking a single bin along dim 2, its edges 0 and 1 are still there. Now the bins along dim 1 are concatenated and the events binned
along coord 2 again. -/

private def c117slice : Arr :=
  ⟨[(1, 2)], [(2, ⟨[(2, 2)], fun p => p 2⟩)], [2], [(fun _ => 0, ⟨1, fun _ => 1 / 2⟩), (fun _ => 1, ⟨2, fun _ => 3 / 4⟩)]⟩

/-- The values of the coord of dim 2 in the output, and its dims. -/
private def c117coord (r : Except Err Arr) : Option (Option (ℚ × ℚ × List (Dim × Nat))) :=
  r.toOption.map (fun out => (out.coord? 2).map (fun c => (c.val (fun _ => 0), c.val (fun _ => 1), c.dims)))

/-- C117 fails: the event at 1/2 is not in the only bin, from 3/5 to 2, but the output has the old edges 0 and 1. -/
theorem C117_wrong_edges : c117coord (makeBinned c117slice [⟨2, [3 / 5, 2], true⟩] [1]) = some (some (0, 1, [(2, 2)])) ∧
    (makeBinned c117slice [⟨2, [3 / 5, 2], true⟩] [1]).toOption.map (fun out => (contents out (fun _ => 0)).map (·.weight)) = some [2] := by
  decide +kernel

/-- C117 fails: with two new bins the old edges are now a coord with one value per bin. -/
theorem C117_wrong_points : c117coord (makeBinned c117slice [⟨2, [0, 1 / 2, 1], true⟩] [1]) = some (some (0, 1, [(2, 2)])) := by decide +kernel

/-- C117 fails: with three new bins there is an error, because the old edges do not fit. -/
theorem C117_wrong_error : (makeBinned c117slice [⟨2, [0, 1 / 4, 1 / 2, 1], true⟩] [1]).toOption.isNone = true := by decide +kernel

/-- C117 fails: if the coord of the input bins is a single value, the output has no bin edges. -/
theorem C117_wrong_scalar : c117coord (makeBinned { c117slice with coords := [(2, ⟨[], fun _ => 7⟩)] } [⟨2, [0, 1 / 2, 1], true⟩] [1]) =
    some (some (7, 7, [])) := by decide +kernel

/-- C117 fails: with `dim=()` no dim is to be summed over, but dim 1 is. -/
theorem C117_wrong_dim : (hist ⟨[(1, 2)], [(3, ⟨[(1, 2)], fun p => p 1⟩)], [], [(fun _ => 0, ⟨1, fun _ => 0⟩), (fun _ => 1, ⟨2, fun _ => 0⟩)]⟩ []
    c117e3 (some [])).toOption.map (fun h => h.dims) = some [(3, 2)] := by decide +kernel

end Scipp.Props
