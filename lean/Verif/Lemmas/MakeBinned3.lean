import Verif.Lemmas.MakeBinned2

namespace Scipp.MakeBinned

theorem named_unique {x : Arr} (hx : Named x) {n : Dim} {c c' : Coord} (h : (n, c) ∈ x.coords) (h' : (n, c') ∈ x.coords) : c = c' := by
  have h1 := (find_name _ hx n c).2 h
  have h2 := (find_name _ hx n c').2 h'
  rw [h1] at h2; exact Option.some.inj h2

/-- Sizes looked up in a list of dims without duplicates. -/
theorem size_iff (x : Arr) (hd : (x.dims.map (·.1)).Nodup) (d : Dim) (n : Nat) : x.size? d = some n ↔ (d, n) ∈ x.dims := find_name _ hd d n

theorem cppBin_ok (x : Arr) (keys : List Key) (erase : List Dim) (h : checkArgs x keys = .ok ()) : ∃ out, cppBin x keys erase = .ok out := by
  unfold cppBin; rw [h]; exact ⟨_, rfl⟩

theorem assignCoords_ok : ∀ (cs : List (Dim × Coord)) (x : Arr), (∀ c ∈ cs, fits x c.2 = true) → ∃ out, assignCoords x cs = .ok out
  | [], x, _ => ⟨x, rfl⟩
  | (n, c) :: rest, x, h => by
    simp only [assignCoords, setCoord, h (n, c) (List.mem_cons_self ..), if_true]
    exact assignCoords_ok rest _ (fun c' hc' => h c' (List.mem_cons_of_mem _ hc'))

theorem key_lengths (k : Key) (h : k.check = .ok ()) : k.values.length = k.size ∨ k.values.length = k.size + 1 := by
  unfold Key.check at h
  unfold Key.size
  split at h
  · rename_i he
    split at h
    · cases h
    · simp only [he, if_true]; omega
  · rename_i he
    simp [he]

theorem combine_ok (x : Arr) (keys : List Key) (erase : List Dim) (hd : (x.dims.map (·.1)).Nodup) (h : checkArgs x keys = .ok ())
    (hc : ∀ c ∈ x.coords, ∀ d ∈ c.2.dims, ∃ n, (d.1, n) ∈ x.dims ∧ (d.2 = n ∨ d.2 = n + 1)) (hnew : ∀ k ∈ keys, k.dim ∉ x.dims.map (·.1)) :
    ∃ out, combine x keys erase = .ok out := by
  unfold combine
  split
  · exact ⟨_, rfl⟩
  rw [h]
  obtain ⟨_, h2, h3, _⟩ := (checkArgs_ok x keys).1 h
  dsimp only
  have hnd : ((x.dims.filter (fun d => !erase.contains d.1 && !(keys.map (·.dim)).contains d.1) ++ keys.map (fun k => (k.dim, k.size))).map
      (·.1)).Nodup := by
    rw [List.map_append, List.map_map, List.nodup_append]
    refine ⟨hd.sublist (List.filter_sublist.map _), h2, ?_⟩
    intro a ha b hb e
    obtain ⟨a', ha', rfl⟩ := List.mem_map.1 ha
    obtain ⟨k, hk, rfl⟩ := List.mem_map.1 hb
    exact hnew k hk (List.mem_map.2 ⟨a', (List.mem_filter.1 ha').1, e⟩)
  have hfit : ∀ (y : Arr), y.dims = x.dims.filter (fun d => !erase.contains d.1 && !(keys.map (·.dim)).contains d.1) ++
      keys.map (fun k => (k.dim, k.size)) → ∀ c ∈ x.coords.filter (fun c => !c.2.dependsOn erase), fits y c.2 = true := by
    intro y hy c hcm
    obtain ⟨hc1, hc2⟩ := List.mem_filter.1 hcm
    simp only [Bool.not_eq_true', dependsOn_false] at hc2
    unfold fits
    rw [List.all_eq_true]
    intro d hdm
    obtain ⟨n, hn, hor⟩ := hc c hc1 d hdm
    have : y.size? d.1 = some n := by
      refine (size_iff y (by rw [hy]; exact hnd) d.1 n).2 ?_
      rw [hy]
      refine List.mem_append_left _ (List.mem_filter.2 ⟨hn, ?_⟩)
      simp only [List.contains_eq_mem, Bool.and_eq_true, Bool.not_eq_true', decide_eq_false_iff_not, List.mem_map, not_exists, not_and]
      refine ⟨hc2 d hdm, ?_⟩
      intro k hk e
      exact hnew k hk (List.mem_map.2 ⟨_, hn, e.symm⟩)
    rw [this]
    simpa using hor
  have hfit' : ∀ (y : Arr), y.dims = x.dims.filter (fun d => !erase.contains d.1 && !(keys.map (·.dim)).contains d.1) ++
      keys.map (fun k => (k.dim, k.size)) → ∀ c ∈ keys.map (fun k => (k.dim, k.coord)), fits y c.2 = true := by
    intro y hy c hcm
    obtain ⟨k, hk, rfl⟩ := List.mem_map.1 hcm
    have : y.size? k.dim = some k.size := by
      refine (size_iff y (by rw [hy]; exact hnd) _ _).2 ?_
      rw [hy]
      exact List.mem_append_right _ (List.mem_map.2 ⟨k, hk, rfl⟩)
    simp only [fits, Key.coord, List.all_cons, List.all_nil, Bool.and_true, this]
    simpa using key_lengths k (h3 k hk)
  obtain ⟨y, hy⟩ := assignCoords_ok _ _ (hfit ⟨_, [], x.eventCoords, moved x keys⟩ rfl)
  rw [hy]
  obtain ⟨_, b2, _⟩ := assignCoords_same _ _ _ hy
  exact assignCoords_ok _ _ (hfit' y b2)

theorem makeBinned_ok (x : Arr) (keys : List Key) (erase : List Dim) (hk : keys ≠ []) (hd : (x.dims.map (·.1)).Nodup)
    (hnd : (keys.map (·.dim)).Nodup) (hck : ∀ k ∈ keys, k.check = .ok ()) (hcc : ∀ k ∈ keys, x.checkCoord k.dim = .ok ())
    (hc : ∀ c ∈ x.coords, ∀ d ∈ c.2.dims, ∃ n, (d.1, n) ∈ x.dims ∧ (d.2 = n ∨ d.2 = n + 1)) (hnew : ∀ k ∈ keys, k.dim ∉ x.dims.map (·.1))
    (hcl : ∀ k ∈ keys, k.dim ∉ erase) (hdim : x.dims ≠ [] ∨ erase = []) : ∃ out, makeBinned x keys erase = .ok out := by
  have hargs : checkArgs x keys = .ok () := (checkArgs_ok x keys).2 ⟨hk, hnd, hck, hcc⟩
  unfold makeBinned
  split
  · rename_i h
    obtain ⟨k, hk', h'⟩ := List.any_eq_true.1 h
    exact absurd (by simpa using h') (hcl k hk')
  split
  · exact combine_ok x keys erase hd hargs hc hnew
  split
  · exact cppBin_ok x keys erase hargs
  rename_i her
  have hx : x.dims.isEmpty = false := by
    rcases hdim with h | h
    · simpa using h
    · simp [h] at her
  split
  · rename_i hde
    have hde' : dense x keys = [] := by simpa using hde
    have hev : ∀ k ∈ keys, k.dim ∈ x.eventCoords := by
      intro k hk'
      by_contra hn
      have : k ∈ dense x keys := List.mem_filter.2 ⟨hk', by simp [hn]⟩
      rw [hde'] at this; cases this
    have hargs' : ∀ y : Arr, y.eventCoords = x.eventCoords → checkArgs y keys = .ok () := by
      intro y hy
      refine (checkArgs_ok y keys).2 ⟨hk, hnd, hck, ?_⟩
      intro k hk'
      simp [Arr.checkCoord, hy, hev k hk']
    unfold finish
    split
    · rename_i h0
      obtain ⟨y, hy⟩ := cppBin_ok _ keys [] (hargs' { concat x erase with coords := [] } rfl)
      rw [hy]
      refine assignCoords_ok _ _ ?_
      intro c hcm
      have : c.2.dims = [] := by
        obtain ⟨h1, h2⟩ := List.mem_filter.1 hcm
        simp only [Bool.not_eq_true', dependsOn_false] at h2
        by_contra hne
        obtain ⟨d, ds, e⟩ := List.exists_cons_of_ne_nil hne
        have hdm : d ∈ c.2.dims := by rw [e]; exact List.mem_cons_self ..
        obtain ⟨n, hn, _⟩ := hc c h1 d hdm
        have h0' : (concat x erase).dims = [] := by simpa using h0
        simp only [concat, List.filter_eq_nil_iff] at h0'
        have := h0' _ hn
        simp at this
        exact h2 d hdm this
      simp [fits, this]
    · exact cppBin_ok _ keys [] (hargs' (concat x erase) rfl)
  rename_i hde
  have hdne : dense x keys ≠ [] := by simpa using hde
  have hsub : ∀ k ∈ dense x keys, k ∈ keys := fun k hk' => (List.mem_filter.1 hk').1
  split
  · rename_i hlt
    have hargsd : checkArgs x (dense x keys) = .ok () :=
      (checkArgs_ok x _).2 ⟨hdne, hnd.sublist (List.filter_sublist.map _), fun k h => hck k (hsub k h), fun k h => hcc k (hsub k h)⟩
    have : ∃ y, makeDense x (dense x keys) erase = .ok y := by
      unfold makeDense
      split
      · exact combine_ok x _ erase hd hargsd hc (fun k h => hnew k (hsub k h))
      · unfold finish
        rw [hx]
        exact cppBin_ok _ _ _ hargsd
    obtain ⟨y, hy⟩ := this
    rw [hy]
    dsimp only
    have hs := makeDense_step x _ erase y hdne hy
    have hyd : y.dims.isEmpty = false := by simpa using step_dims_ne hs hdne
    unfold finish
    rw [hyd]
    simp only [Bool.false_eq_true, if_false]
    refine cppBin_ok _ _ _ ((checkArgs_ok y _).2 ⟨?_, hnd.sublist (List.filter_sublist.map _), ?_, ?_⟩)
    · rw [second_keys x y keys erase hs]
      intro h0
      have hp := (dense_perm x keys).length_eq
      rw [h0] at hp
      simp only [List.append_nil] at hp
      omega
    · intro k hk'; exact hck k (List.mem_filter.1 hk').1
    · intro k hk'
      have := (List.mem_filter.1 hk').2
      simp only [Arr.checkCoord, this, if_true]
  · unfold finish
    rw [hx]
    exact cppBin_ok _ _ _ hargs

/-! Histograms -/

theorem sum_weights {l l' : List (Pos × Event)} (h : l.map (·.2) = l'.map (·.2)) :
    (l.map (fun it => it.2.weight)).sum = (l'.map (fun it => it.2.weight)).sum := by
  have e : ∀ l : List (Pos × Event), l.map (fun it => it.2.weight) = (l.map (·.2)).map Event.weight := by
    intro l; rw [List.map_map]; rfl
  rw [e, e, h]

theorem agree_iff (ds : List (Dim × Nat)) (p q : Pos) : agree ds p q = true ↔ ∀ d ∈ ds, q d.1 = p d.1 := by
  simp only [agree, List.all_eq_true, beq_iff_eq]
  exact forall_congr' fun d => forall_congr' fun _ => eq_comm

/-- What is needed of `make_histogrammed`: along which dims it sums. -/
theorem makeHist_ok (x : Arr) (hx : Named x) (k : Key) (erase : List Dim) (out : Hist) (h : makeHist x k erase = .ok out)
    (hdep : k.dim ∈ x.eventCoords ∨ ∃ c, (k.dim, c) ∈ x.coords ∧ ∃ d ∈ c.dims, d.1 ∈ erase ∨ d.1 = k.dim) :
    k.check = .ok () ∧ k.dim ∉ erase ∧ ∃ along : List Dim, out = cppHistogram x k along ∧ ∀ d ∈ x.labels, d ∈ along ↔ d ∈ erase ∨ d = k.dim := by
  have hal : ∀ d ∈ x.labels, d ∈ x.labels.filter (fun d => erase.contains d) ++ (if x.labels.contains k.dim then [k.dim] else []) ↔
      d ∈ erase ∨ d = k.dim := by
    intro d hd
    simp only [List.mem_append, List.mem_filter, hd, true_and, List.contains_eq_mem, decide_eq_true_eq]
    refine or_congr_right ?_
    constructor
    · intro h; split at h
      · simpa using h
      · cases h
    · rintro rfl; simp [hd]
  unfold makeHist at h
  dsimp only at h
  generalize x.labels.filter (fun d => erase.contains d) ++ (if x.labels.contains k.dim then [k.dim] else []) = along at h hal
  split at h
  · cases h
  rename_i hck
  refine ⟨hck, ?_⟩
  split at h
  · split at h
    · cases h
    · rename_i he
      exact ⟨by simpa using he, _, (Except.ok.inj h).symm, hal⟩
  · rename_i hev
    split at h
    · cases h
    · rename_i c hc
      have hcm : (k.dim, c) ∈ x.coords := (find_name _ hx _ _).1 hc
      split at h
      · rename_i hsz
        split at h
        · cases h
        · rename_i he
          refine ⟨by simpa using he, ?_⟩
          obtain ⟨d, hd, hor⟩ : ∃ d ∈ c.dims, d.1 ∈ erase ∨ d.1 = k.dim := by
            rcases hdep with h' | ⟨c', hc', h'⟩
            · exact absurd (by simpa using h') hev
            · rw [named_unique hx hcm hc']; exact h'
          have hlab : d.1 ∈ x.labels := by
            have := List.all_eq_true.1 hsz d hd
            simp only [beq_iff_eq] at this
            unfold Arr.size? at this
            simp only [Option.map_eq_some_iff] at this
            obtain ⟨a, ha, _⟩ := this
            have h1 := List.mem_of_find?_eq_some ha
            have h2 : a.1 = d.1 := by simpa using List.find?_some ha
            exact List.mem_map.2 ⟨a, h1, h2⟩
          have hin := (hal d.1 hlab).2 hor
          split at h
          · rename_i h0
            have h0' := List.isEmpty_iff.1 h0
            rw [h0'] at hin; cases hin
          · split at h
            · exact ⟨_, (Except.ok.inj h).symm, hal⟩
            · cases h
      · cases h

theorem dropCoords_names (x : Arr) (erase names : List Dim) (n : Dim) (hn : n ∈ names) :
    n ∈ (dropCoords x erase names).eventCoords ↔ n ∈ x.eventCoords := by
  unfold dropCoords
  split
  · simp [hn]
  · rfl

theorem dropCoords_same (x : Arr) (erase names : List Dim) : (dropCoords x erase names).items = x.items ∧
    (dropCoords x erase names).dims = x.dims ∧ (dropCoords x erase names).coords = x.coords := by
  unfold dropCoords
  split <;> exact ⟨rfl, rfl, rfl⟩

theorem value_names (x x' : Arr) (n : Dim) (h1 : n ∈ x'.eventCoords ↔ n ∈ x.eventCoords) (h2 : x'.coords = x.coords) (p : Pos) (e : Event) :
    x'.value? n p e = x.value? n p e := by
  unfold Arr.value? Arr.coord?
  simp only [List.contains_eq_mem, h1, h2]

theorem idx_names (x x' : Arr) (k : Key) (h1 : k.dim ∈ x'.eventCoords ↔ k.dim ∈ x.eventCoords) (h2 : x'.coords = x.coords) (it : Pos × Event) :
    idx x' k it = idx x k it := by
  unfold idx; rw [value_names x x' k.dim h1 h2]

/-- The sum over everything that belongs into a bin, with the indices of the keys. -/
theorem sum_expected (x : Arr) (hx : Named x) (keys : List Key) (hck : ∀ k ∈ keys, k.check = .ok ()) (erase : List Dim) (p : Pos)
    (l : List (Pos × Event))
    (h : ∀ (Q : Pos × Event → Prop) [DecidablePred Q], (∀ it, Q it ↔ ((∀ d ∈ x.dims, d.1 ∉ erase → (∀ k ∈ keys, k.dim ≠ d.1) → it.1 d.1 = p d.1) ∧
      ∀ k ∈ keys, idx x k it = some (p k.dim))) → l.map (·.2) = (x.items.filter (fun it => decide (Q it))).map (·.2)) :
    l.map (·.2) = expected x keys erase p := by
  classical
  unfold expected
  refine h _ ?_
  intro it
  unfold Belongs
  refine and_congr_right fun _ => ?_
  refine forall_congr' fun k => forall_congr' fun hk => ?_
  rw [idx_iff x hx k (hck k hk)]

theorem cppHistogram_value (x : Arr) (k : Key) (along : List Dim) (p : Pos) : (cppHistogram x k along).value p =
    ((x.items.filter fun it => decide ((∀ d ∈ x.dims, d.1 ∉ along → it.1 d.1 = p d.1) ∧ idx x k it = some (p k.dim))).map
      (fun it => it.2.weight)).sum := by
  unfold cppHistogram
  dsimp only
  congr 2
  apply List.filter_congr
  intro it _
  rw [Bool.eq_iff_iff]
  simp only [Bool.and_eq_true, agree_iff, List.mem_filter, Bool.not_eq_true', List.contains_eq_mem, decide_eq_false_iff_not, beq_iff_eq,
    and_imp, idx]
  exact decide_eq_true_iff.symm

end Scipp.MakeBinned
