import Verif.Lemmas.MakeBinned3

namespace Scipp.MakeBinned

theorem makeHist_coord (x : Arr) (hx : Named x) (k : Key) (erase : List Dim) (out : Hist) (h : makeHist x k erase = .ok out)
    (hev : k.dim ∉ x.eventCoords) : ∃ c, (k.dim, c) ∈ x.coords := by
  unfold makeHist at h
  dsimp only at h
  split at h
  · cases h
  split at h
  · rename_i h'; exact absurd (by simpa using h') hev
  · split at h
    · cases h
    · rename_i c hc; exact ⟨c, (find_name _ hx _ _).1 hc⟩

theorem eraseFirst_ok (x : Arr) (hx : Named x) (k : Key) (erase erase' : List Dim) (h : eraseFirst x k erase = .ok erase') :
    (∀ d ∈ erase', d ∈ erase) ∧ (k.dim ∉ x.eventCoords → ∀ c, (k.dim, c) ∈ x.coords → ∀ d ∈ c.dims, d.1 ∉ erase') := by
  unfold eraseFirst at h
  split at h
  · rename_i hev
    have := Except.ok.inj h; subst this
    exact ⟨fun d hd => hd, fun hn => absurd (by simpa using hev) hn⟩
  · split at h
    · cases h
    · rename_i c hc
      have := Except.ok.inj h; subst this
      refine ⟨fun d hd => (List.mem_filter.1 hd).1, ?_⟩
      intro _ c' hc' d hd hm
      rw [named_unique hx hc' ((find_name _ hx _ _).1 hc)] at hd
      have := (List.mem_filter.1 hm).2
      simp only [Bool.not_eq_true', List.contains_eq_mem, decide_eq_false_iff_not] at this
      exact this (List.mem_map.2 ⟨d, hd, rfl⟩)

theorem replaced_names (x : Arr) (names : List Dim) (dim : Option (List Dim)) : ∀ d ∈ replacedDims x names dim, d ∉ names := by
  intro d hd hn
  have := (List.mem_filter.1 hd).2
  simp only [Bool.and_eq_true, Bool.not_eq_true', List.contains_eq_mem, decide_eq_false_iff_not] at this
  exact this.2 hn

theorem makeHist_result (x : Arr) (hx : Named x) (k : Key) (erase : List Dim) (out : Hist) (h : makeHist x k erase = .ok out)
    (hdep : k.dim ∈ x.eventCoords ∨ ∃ c, (k.dim, c) ∈ x.coords ∧ ∃ d ∈ c.dims, d.1 ∈ erase ∨ d.1 = k.dim) :
    (∀ p, out.value p = ((expected x [k] erase p).map Event.weight).sum) ∧
    out.dims = x.dims.filter (fun d => !erase.contains d.1 && !([k].map (·.dim)).contains d.1) ++ [k].map (fun k => (k.dim, k.size)) := by
  obtain ⟨hck, hke, along, rfl, hal⟩ := makeHist_ok x hx k erase out h hdep
  have hal' : ∀ d ∈ x.dims, d.1 ∈ along ↔ d.1 ∈ erase ∨ d.1 = k.dim := fun d hd => hal d.1 (List.mem_map.2 ⟨d, hd, rfl⟩)
  refine ⟨?_, ?_⟩
  · intro p
    rw [cppHistogram_value]
    have : ∀ l : List (Pos × Event), l.map (fun it => it.2.weight) = (l.map (·.2)).map Event.weight := by
      intro l; rw [List.map_map]; rfl
    rw [this, sum_expected x hx [k] (by simpa using hck) erase p]
    intro Q _ hQ
    congr 1
    apply List.filter_congr
    intro it _
    rw [decide_eq_decide, hQ]
    simp only [List.mem_singleton, forall_eq]
    refine and_congr_left fun _ => ?_
    constructor
    · intro h1 d hd he hk
      refine h1 d hd ?_
      rw [hal' d hd]; rintro (h2 | h2)
      · exact he h2
      · exact hk h2.symm
    · intro h1 d hd he
      rw [hal' d hd, not_or] at he
      exact h1 d hd he.1 (Ne.symm he.2)
  · show x.dims.filter _ ++ [(k.dim, k.size)] = _
    congr 1
    apply List.filter_congr
    intro d hd
    rw [Bool.eq_iff_iff]
    simp only [Bool.not_eq_true', List.contains_eq_mem, decide_eq_false_iff_not, hal' d hd, not_or, List.map_cons, List.map_nil,
      List.mem_singleton, Bool.and_eq_true]

theorem coords_from (x : Arr) (hx : Named x) (keys : List Key) (erase : List Dim) (out : Arr) (hk : keys ≠ [])
    (h : makeBinned x keys erase = .ok out) : Named out ∧ ∀ n c, (n, c) ∈ out.coords → n ∉ keys.map (·.dim) → (n, c) ∈ x.coords := by
  rcases makeBinned_coords x hx keys erase out hk h with ⟨keys', hp, hc⟩ | ⟨_, hn, hc⟩
  · refine ⟨hc.named, fun n c h1 h2 => (hc.sub n c h1 ?_).1⟩
    intro h3; exact h2 ((hp.map _).mem_iff.1 h3)
  · refine ⟨hn, fun n c h1 h2 => ?_⟩
    rcases (hc n c).1 h1 with h3 | ⟨⟨k, hk', rfl, _⟩, _⟩
    · exact h3.1
    · exact absurd (List.mem_map.2 ⟨k, hk', rfl⟩) h2

theorem hist_result (x : Arr) (hx : Named x) (first : List Key) (last : Key) (dim : Option (List Dim)) (out : Hist)
    (h : hist x first last dim = .ok out) (hedges : ∀ k ∈ first, k.edges = true) (hnd : ((first ++ [last]).map (·.dim)).Nodup)
    (hloc : ∀ c, (last.dim, c) ∈ x.coords → c.Local ∧ c.Free (first.map (·.dim))) (erase : List Dim)
    (her : erase = replacedDims x ((first ++ [last]).map (·.dim)) dim)
    (hdep : last.dim ∈ x.eventCoords ∨ ∃ c, (last.dim, c) ∈ x.coords ∧ ∃ d ∈ c.dims, d.1 ∈ erase ∨ d.1 = last.dim) :
    (∀ p, out.value p = ((expected x (first ++ [last]) erase p).map Event.weight).sum) ∧
    out.dims.Perm (x.dims.filter (fun d => !erase.contains d.1 && !((first ++ [last]).map (·.dim)).contains d.1) ++
      (first ++ [last]).map (fun k => (k.dim, k.size))) := by
  have hen : ∀ d ∈ erase, d ∉ (first ++ [last]).map (·.dim) := by rw [her]; exact replaced_names _ _ _
  unfold hist at h
  dsimp only at h
  have hnames : first.map (·.dim) ++ [last.dim] = (first ++ [last]).map (·.dim) := by simp
  rw [hnames, ← her] at h
  split at h
  · obtain ⟨h1, h2⟩ := makeHist_result x hx last erase out h hdep
    exact ⟨h1, List.Perm.of_eq h2⟩
  rename_i hne
  have hne' : first ≠ [] := by intro e; exact hne e
  generalize hxd : dropCoords x erase ((first ++ [last]).map (·.dim)) = x' at h
  obtain ⟨xi, xdm, xc⟩ := dropCoords_same x erase ((first ++ [last]).map (·.dim))
  have xe := dropCoords_names x erase ((first ++ [last]).map (·.dim))
  rw [hxd] at xi xdm xc xe
  have hx' : Named x' := by unfold Named; rw [xc]; exact hx
  have hlast : last.dim ∈ (first ++ [last]).map (·.dim) := by simp
  split at h
  · cases h
  rename_i erase' herase
  split at h
  · cases h
  rename_i y hy
  obtain ⟨e1, e2⟩ := eraseFirst_ok x' hx' last erase erase' herase
  obtain ⟨keys', hp, hs⟩ := makeBinned_step x' first erase' y hne' hy
  obtain ⟨hyn, hyc⟩ := coords_from x' hx' first erase' y hne' hy
  have hlf : last.dim ∉ first.map (·.dim) := by
    rw [List.map_append, List.nodup_append] at hnd
    intro hm; exact hnd.2.2 _ hm last.dim (by simp) rfl
  have hye : last.dim ∈ y.eventCoords ↔ last.dim ∈ x.eventCoords := by
    rw [hs.events, xe _ hlast]
    refine and_iff_left ?_
    intro k hk he
    rw [hedges k (hp.mem_iff.1 hk)] at he; cases he
  have hmem : ∀ k, k ∈ keys' ↔ k ∈ first := fun k => hp.mem_iff
  generalize hrem : erase.filter (fun d => !erase'.contains d) = rem at h
  have hrem' : ∀ d, d ∈ rem ↔ d ∈ erase ∧ d ∉ erase' := by intro d; rw [← hrem]; simp
  have hdep' : last.dim ∈ y.eventCoords ∨ ∃ c, (last.dim, c) ∈ y.coords ∧ ∃ d ∈ c.dims, d.1 ∈ rem ∨ d.1 = last.dim := by
    by_cases hev : last.dim ∈ y.eventCoords
    · exact Or.inl hev
    · right
      obtain ⟨c, hc⟩ := makeHist_coord y hyn last rem out h hev
      have hcx : (last.dim, c) ∈ x.coords := by rw [← xc]; exact hyc _ _ hc hlf
      refine ⟨c, hc, ?_⟩
      rcases hdep with h' | ⟨c', hc', d, hd, hor⟩
      · exact absurd (hye.2 h') hev
      · rw [named_unique hx hc' hcx] at hd
        refine ⟨d, hd, ?_⟩
        rcases hor with h3 | h3
        · left
          refine (hrem' _).2 ⟨h3, e2 ?_ c (by rw [xc]; exact hcx) d hd⟩
          rw [xe _ hlast]; intro h4; exact hev (hye.2 h4)
        · exact Or.inr h3
  obtain ⟨hck, hke, along, rfl, hal⟩ := makeHist_ok y hyn last rem out h hdep'
  have hal' : ∀ d ∈ y.dims, d.1 ∈ along ↔ d.1 ∈ rem ∨ d.1 = last.dim := fun d hd => hal d.1 (List.mem_map.2 ⟨d, hd, rfl⟩)
  have hkall : ∀ k ∈ first ++ [last], k.check = .ok () := by
    intro k hk
    rcases List.mem_append.1 hk with hk | hk
    · exact hs.checks k ((hmem k).2 hk)
    · rw [List.mem_singleton.1 hk]; exact hck
  have hymem : ∀ d, d ∈ y.dims ↔ (d ∈ x.dims ∧ d.1 ∉ erase' ∧ d.1 ∉ first.map (·.dim)) ∨ ∃ k ∈ first, d = (k.dim, k.size) := by
    intro d
    rw [hs.dims.mem_iff, List.mem_append, List.mem_filter, xdm]
    simp only [Bool.and_eq_true, Bool.not_eq_true', List.contains_eq_mem, decide_eq_false_iff_not, (hp.map _).mem_iff]
    refine or_congr_right ?_
    simp only [List.mem_map]
    exact ⟨fun ⟨k, h1, h2⟩ => ⟨k, h1, h2.symm⟩, fun ⟨k, h1, h2⟩ => ⟨k, h1, h2.symm⟩⟩
  have hkrem : ∀ k ∈ first, ¬ (k.dim ∈ rem ∨ k.dim = last.dim) := by
    rintro k hk (h1 | h1)
    · exact hen _ ((hrem' _).1 h1).1 (by simp only [List.map_append, List.mem_append]; exact Or.inl (List.mem_map.2 ⟨k, hk, rfl⟩))
    · exact hlf (List.mem_map.2 ⟨k, hk, h1⟩)
  refine ⟨?_, ?_⟩
  · intro p
    rw [cppHistogram_value]
    have hw : ∀ l : List (Pos × Event), l.map (fun it => it.2.weight) = (l.map (·.2)).map Event.weight := by
      intro l; rw [List.map_map]; rfl
    rw [hw, sum_expected x hx (first ++ [last]) hkall erase p]
    intro Q _ hQ
    have hidx : ∀ (it : Pos × Event) (q : Pos), (∀ d, (∀ k ∈ keys', k.dim ≠ d) → q d = it.1 d) → idx y last (q, it.2) = idx x last it := by
      intro it q h2
      unfold idx Arr.value?
      by_cases hev : last.dim ∈ x.eventCoords
      · simp [hev, hye.2 hev]
      · have hev' : last.dim ∉ y.eventCoords := fun h' => hev (hye.1 h')
        simp only [List.contains_eq_mem, hev, hev', decide_false, Bool.false_eq_true, if_false]
        obtain ⟨c, hc⟩ := makeHist_coord y hyn last rem _ h hev'
        have hcx : (last.dim, c) ∈ x.coords := by rw [← xc]; exact hyc _ _ hc hlf
        have a1 : y.coord? last.dim = some c := (find_name _ hyn _ _).2 hc
        have a2 : x.coord? last.dim = some c := (find_name _ hx _ _).2 hcx
        rw [a1, a2]
        simp only [Option.map_some, Option.bind_some]
        rw [(hloc c hcx).1 q it.1]
        intro d hd
        apply h2
        intro k hk e
        exact (hloc c hcx).2 d hd (List.mem_map.2 ⟨k, (hmem k).1 hk, e⟩)
    rw [hs.items]
    rw [← xi]
    refine moved_filter x' keys' hs.nodup
      (fun q e => (∀ d ∈ y.dims, d.1 ∉ along → q d.1 = p d.1) ∧ idx y last (q, e) = some (p last.dim)) Q ?_ ?_
    · intro it q h1 h2
      rw [hQ, hidx it q h2]
      simp only [List.mem_append, List.mem_singleton, or_imp, forall_and, forall_eq]
      rw [← and_assoc]
      refine and_congr_left fun _ => ?_
      have hi : ∀ k ∈ first, idx x k it = some (q k.dim) := by
        intro k hk
        rw [← h1 k ((hmem k).2 hk)]
        exact (idx_names x x' k (xe _ (by simp only [List.map_append, List.mem_append]; exact Or.inl (List.mem_map.2 ⟨k, hk, rfl⟩))) xc it).symm
      constructor
      · intro hq
        refine ⟨?_, ?_⟩
        · intro d hd he hk
          have hdf : ∀ k ∈ keys', k.dim ≠ d.1 := fun k hk' => hk.1 k ((hmem k).1 hk')
          rw [← h2 d.1 hdf]
          have hdy : d ∈ y.dims := by
            refine (hymem d).2 (Or.inl ⟨hd, fun h' => he (e1 _ h'), ?_⟩)
            intro hm; obtain ⟨k, hk', e⟩ := List.mem_map.1 hm; exact hk.1 k hk' e
          refine hq d hdy ?_
          rw [hal' d hdy, not_or]
          exact ⟨fun h' => he ((hrem' _).1 h').1, Ne.symm hk.2⟩
        · intro k hk
          rw [hi k hk]
          have hdy : (k.dim, k.size) ∈ y.dims := (hymem _).2 (Or.inr ⟨k, hk, rfl⟩)
          rw [hq _ hdy (by rw [hal' _ hdy]; exact hkrem k hk)]
      · rintro ⟨ha, hb⟩ d hd hda
        rw [hal' d hd, not_or] at hda
        rcases (hymem d).1 hd with ⟨h3, h4, h5⟩ | ⟨k, hk, rfl⟩
        · have hdf : ∀ k ∈ first, k.dim ≠ d.1 := fun k hk e => h5 (List.mem_map.2 ⟨k, hk, e⟩)
          rw [h2 d.1 (fun k hk => hdf k ((hmem k).1 hk))]
          refine ha d h3 ?_ ⟨hdf, Ne.symm hda.2⟩
          intro he; exact hda.1 ((hrem' _).2 ⟨he, h4⟩)
        · have := hb k hk
          rw [hi k hk] at this
          exact Option.some.inj this
    · intro it hit k hk
      refine ⟨p k.dim, ?_⟩
      have hk' := (hmem k).1 hk
      rw [idx_names x x' k (xe _ (by simp only [List.map_append, List.mem_append]; exact Or.inl (List.mem_map.2 ⟨k, hk', rfl⟩))) xc it]
      exact ((hQ it).1 hit).2 k (List.mem_append_left _ hk')
  · show (y.dims.filter _ ++ [(last.dim, last.size)]).Perm _
    rw [List.map_append, List.map_append, ← List.append_assoc]
    refine List.Perm.append_right _ ?_
    have hf : y.dims.filter (fun d => !along.contains d.1) = y.dims.filter (fun d => !(rem.contains d.1 || d.1 == last.dim)) := by
      apply List.filter_congr
      intro d hd
      rw [Bool.eq_iff_iff]
      simp only [Bool.not_eq_true', List.contains_eq_mem, decide_eq_false_iff_not, hal' d hd, Bool.or_eq_false_iff, beq_eq_false_iff_ne, ne_eq,
        not_or]
    rw [hf]
    refine ((hs.dims.filter _).trans ?_)
    rw [List.filter_append, List.filter_filter, xdm]
    refine List.Perm.append (List.Perm.of_eq ?_) ?_
    · apply List.filter_congr
      intro d hd
      rw [Bool.eq_iff_iff]
      simp only [Bool.not_eq_true', List.contains_eq_mem, decide_eq_false_iff_not, Bool.or_eq_false_iff, beq_eq_false_iff_ne, ne_eq,
        Bool.and_eq_true, (hp.map _).mem_iff, hrem', List.mem_append, not_or, List.map_cons, List.map_nil, List.mem_singleton]
      constructor
      · rintro ⟨⟨a1, a2⟩, a3, a4⟩; exact ⟨fun h' => a1 ⟨h', a3⟩, a4, a2⟩
      · rintro ⟨a1, a2, a3⟩; exact ⟨⟨fun h' => a1 h'.1, a3⟩, fun h' => a1 (e1 _ h'), a2⟩
    · rw [List.filter_eq_self.2]
      · exact hp.map _
      · intro d hd
        obtain ⟨k, hk, rfl⟩ := List.mem_map.1 hd
        have := hkrem k ((hmem k).1 hk)
        rw [not_or] at this
        simp [this.1, this.2]

end Scipp.MakeBinned
