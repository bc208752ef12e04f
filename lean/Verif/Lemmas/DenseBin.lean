import Verif.Spec.DenseBin
import Verif.Lemmas.MakeBinned4
import Mathlib.Data.List.Nodup

namespace Scipp.MakeBinned

theorem ascending_of : ∀ (l : List ℚ), (∀ i, i + 1 < l.length → l.getD i 0 ≤ l.getD (i + 1) 0) → ascending l = true
  | [], _ => rfl
  | [_], _ => rfl
  | a :: b :: rest, h => by
    simp only [ascending, Bool.and_eq_true, decide_eq_true_eq]
    refine ⟨by simpa using h 0 (by simp), ascending_of (b :: rest) ?_⟩
    intro i hi
    simpa using h (i + 1) (by simpa using hi)

theorem positions_mem : ∀ (dims : List (Dim × Nat)), (dims.map (·.1)).Nodup → ∀ q : Pos,
    q ∈ positions dims ↔ (∀ d ∈ dims, q d.1 < d.2) ∧ ∀ d, d ∉ dims.map (·.1) → q d = 0
  | [], _, q => by
    simp only [positions, List.mem_singleton, List.not_mem_nil, false_implies, implies_true, true_and, List.map_nil, not_false_eq_true, forall_const]
    exact ⟨fun h d => by rw [h], fun h => funext h⟩
  | (d, n) :: rest, hd, q => by
    simp only [List.map_cons, List.nodup_cons] at hd
    have ih := positions_mem rest hd.2
    simp only [positions, List.mem_flatMap, List.mem_range]
    constructor
    · rintro ⟨i, hi, hp⟩
      obtain ⟨p, hp', rfl⟩ := List.mem_map.1 hp
      obtain ⟨h1, h2⟩ := (ih p).1 hp'
      refine ⟨?_, ?_⟩
      · intro e he
        rcases List.mem_cons.1 he with h' | he'
        · subst h'; simpa [Pos.set] using hi
        · have : e.1 ≠ d := fun h' => hd.1 (List.mem_map.2 ⟨e, he', h'⟩)
          simpa [Pos.set, this] using h1 e he'
      · intro e he
        simp only [List.map_cons, List.mem_cons, not_or] at he
        simpa [Pos.set, he.1] using h2 e he.2
    · rintro ⟨h1, h2⟩
      refine ⟨q d, h1 (d, n) (List.mem_cons_self ..), List.mem_map.2 ⟨q.set d 0, (ih _).2 ⟨?_, ?_⟩, ?_⟩⟩
      · intro e he
        have : e.1 ≠ d := by rintro rfl; exact hd.1 (List.mem_map.2 ⟨e, he, rfl⟩)
        simpa [Pos.set, this] using h1 e (List.mem_cons_of_mem _ he)
      · intro e he
        by_cases hed : e = d
        · simp [Pos.set, hed]
        · have := h2 e (by simp only [List.map_cons, List.mem_cons, not_or]; exact ⟨hed, he⟩)
          simpa [Pos.set, hed] using this
      · funext e
        by_cases hed : e = d
        · simp [Pos.set, hed]
        · simp [Pos.set, hed]

theorem positions_nodup : ∀ (dims : List (Dim × Nat)), (dims.map (·.1)).Nodup → (positions dims).Nodup
  | [], _ => by simp [positions]
  | (d, n) :: rest, hd => by
    simp only [List.map_cons, List.nodup_cons] at hd
    have ih := positions_nodup rest hd.2
    simp only [positions]
    rw [List.nodup_flatMap]
    refine ⟨?_, ?_⟩
    · intro i _
      refine (List.nodup_map_iff_inj_on ih).2 ?_
      intro p hp q hq h
      funext e
      by_cases hed : e = d
      · subst hed
        rw [((positions_mem rest hd.2 p).1 hp).2 e hd.1, ((positions_mem rest hd.2 q).1 hq).2 e hd.1]
      · have := congrFun h e
        simpa [Pos.set, hed] using this
    · refine List.nodup_range.imp ?_
      intro i j hij
      simp only [Function.onFun]
      intro p hp hq
      obtain ⟨a, _, rfl⟩ := List.mem_map.1 hp
      obtain ⟨b, _, h⟩ := List.mem_map.1 hq
      have := congrFun h d
      simp [Pos.set] at this
      exact hij this.symm

theorem single_iff (l : List Dim) (d : Dim) : single l = some d ↔ d ∈ l ∧ ∀ e ∈ l, e = d := by
  cases l with
  | nil => simp [single]
  | cons a rest =>
    simp only [single, List.all_eq_true, beq_iff_eq, Option.ite_none_right_eq_some, Option.some.injEq]
    constructor
    · rintro ⟨h1, rfl⟩
      refine ⟨List.mem_cons_self .., ?_⟩
      intro e he
      rcases List.mem_cons.1 he with rfl | he
      · rfl
      · exact h1 e he
    · rintro ⟨_, h⟩
      have ha := h a (List.mem_cons_self ..)
      exact ⟨fun e he => by rw [h e (List.mem_cons_of_mem _ he), ha], ha⟩

theorem opDims_mem (x : Dense) (hx : x.WF) (names : List Dim) (d : Dim) :
    d ∈ x.opDims names ↔ ∃ n ∈ names, ∃ c e, (n, c) ∈ x.coords ∧ c.dims.getLast? = some e ∧ e.1 = d := by
  unfold Dense.opDims
  simp only [List.mem_filterMap, Option.bind_eq_some_iff, Option.map_eq_some_iff]
  constructor
  · rintro ⟨n, hn, c, hc, e, he, rfl⟩
    exact ⟨n, hn, c, e, (find_name _ hx.coords n c).1 (by simpa [Arr.coord?, Dense.frame] using hc), he, rfl⟩
  · rintro ⟨n, hn, c, e, hc, he, rfl⟩
    refine ⟨n, hn, c, ?_, e, he, rfl⟩
    have := (find_name _ hx.coords n c).2 hc
    simpa [Arr.coord?, Dense.frame] using this

theorem along_iff (x : Dense) (hx : x.WF) (keys : List Key) (op : Dim) : single (x.opDims (keys.map (·.dim))) = some op ↔ x.Along keys op := by
  rw [single_iff]
  unfold Dense.Along
  simp only [opDims_mem x hx, List.mem_map]
  constructor
  · rintro ⟨⟨_, ⟨k, hk, rfl⟩, c, e, hc, he, rfl⟩, h⟩
    refine ⟨⟨k, hk, c, e.2, hc, he⟩, ?_⟩
    intro k' hk' c' d' hc' hd'
    exact h d'.1 ⟨_, ⟨k', hk', rfl⟩, c', d', hc', hd', rfl⟩
  · rintro ⟨⟨k, hk, c, n, hc, he⟩, h⟩
    refine ⟨⟨_, ⟨k, hk, rfl⟩, c, _, hc, he, rfl⟩, ?_⟩
    rintro e ⟨_, ⟨k', hk', rfl⟩, c', d', hc', hd', rfl⟩
    exact h k' hk' c' d' hc' hd'

/-- The helper coords, and those of the input which are not replaced by them. -/
theorem withHelpers_coord (x : Dense) (extra : List (Dim × Nat)) (n : Dim) (hn : n ∉ extra.map (·.1)) :
    (x.withHelpers extra).frame.coord? n = x.frame.coord? n := by
  have h1 : (extra.map (fun d => (d.1, (⟨[d], fun p => (p d.1 : ℚ)⟩ : Coord)))).find? (fun e => e.1 == n) = none := by
    rw [List.find?_eq_none]
    intro e he
    obtain ⟨d, hd, rfl⟩ := List.mem_map.1 he
    simp only [beq_iff_eq]
    rintro rfl
    exact hn (List.mem_map.2 ⟨d, hd, rfl⟩)
  have h2 : (x.coords.filter (fun c => !(extra.map (·.1)).contains c.1)).find? (fun e => e.1 == n) = x.coords.find? (fun e => e.1 == n) := by
    rw [List.find?_filter]
    congr 1
    funext e
    by_cases he : e.1 = n
    · have : e.1 ∉ extra.map (·.1) := he ▸ hn
      simp [he]; simpa [he] using this
    · simp [he]
  simp only [Arr.coord?, Dense.frame, Dense.withHelpers, List.find?_append, h1, h2, Option.none_or]

theorem withHelpers_extra (x : Dense) (extra : List (Dim × Nat)) (hnd : (extra.map (·.1)).Nodup) (d : Dim × Nat) (hd : d ∈ extra) :
    (x.withHelpers extra).frame.coord? d.1 = some ⟨[d], fun p => (p d.1 : ℚ)⟩ := by
  have : (extra.map (fun d => (d.1, (⟨[d], fun p => (p d.1 : ℚ)⟩ : Coord)))).find? (fun e => e.1 == d.1) =
      some (d.1, ⟨[d], fun p => (p d.1 : ℚ)⟩) := by
    rw [List.find?_eq_some_iff_append]
    obtain ⟨l, r, rfl⟩ := List.append_of_mem hd
    refine ⟨by simp, l.map (fun d => (d.1, (⟨[d], fun p => (p d.1 : ℚ)⟩ : Coord))), r.map (fun d => (d.1, (⟨[d], fun p => (p d.1 : ℚ)⟩ : Coord))), by simp, ?_⟩
    intro a ha
    obtain ⟨e, he, rfl⟩ := List.mem_map.1 ha
    simp only [List.map_append, List.map_cons, List.nodup_append, List.nodup_cons] at hnd
    have := hnd.2.2 e.1 (List.mem_map.2 ⟨e, he, rfl⟩) d.1 (List.mem_cons_self ..)
    simpa using this
  simp only [Arr.coord?, Dense.frame, Dense.withHelpers, List.find?_append, this, Option.some_or, Option.map_some]

theorem withHelpers_size (x : Dense) (extra : List (Dim × Nat)) (d : Dim) : (x.withHelpers extra).frame.size? d = x.frame.size? d := rfl

theorem withHelpers_aligned (x : Dense) (extra : List (Dim × Nat)) (c : Coord) : (x.withHelpers extra).aligned c = x.aligned c := rfl

theorem aligned_iff (x : Dense) (hx : x.WF) (c : Coord) : x.aligned c = true ↔ ∀ d ∈ c.dims, d ∈ x.dims := by
  unfold Dense.aligned
  simp only [List.all_eq_true, beq_iff_eq]
  refine forall_congr' fun d => ?_
  refine imp_congr_right fun _ => ?_
  rw [size_iff x.frame hx.dims]
  rfl

theorem helperKey_check (d : Dim × Nat) : (helperKey d).check = .ok () := by
  have : (List.map (fun i : Nat => (i : ℚ)) (List.range d.2)).Nodup :=
    List.nodup_range.map (fun a b h => by exact_mod_cast h)
  simp [helperKey, Key.check, this]

theorem helperKey_size (d : Dim × Nat) : (helperKey d).size = d.2 := by simp [helperKey, Key.size]

theorem helperKey_index (d : Dim × Nat) (i : Nat) (hi : i < d.2) : (helperKey d).index (i : ℚ) = some i := by
  rw [index_iff _ (helperKey_check d)]
  refine ⟨by rw [helperKey_size]; exact hi, ?_⟩
  simp [helperKey, List.getD_eq_getElem?_getD, hi]

/-- The index along the given dims only. -/
def only (extra : List (Dim × Nat)) (q : Pos) : Pos := fun d => if d ∈ extra.map (·.1) then q d else 0

theorem flatten_events (x : Dense) (hx : x.WF) (extra : List (Dim × Nat)) (hsub : ∀ d ∈ extra, d ∈ x.dims) (u n : Dim) :
    n ∈ ((x.withHelpers extra).flatten u).eventCoords ↔ n ∈ extra.map (·.1) ∨
      (n ∉ extra.map (·.1) ∧ ∃ c, (n, c) ∈ x.coords ∧ c.dims ≠ [] ∧ ∀ d ∈ c.dims, d ∈ x.dims) := by
  unfold Dense.flatten
  simp only [List.mem_map, List.mem_filter, Bool.and_eq_true, Bool.not_eq_true', withHelpers_aligned]
  constructor
  · rintro ⟨⟨m, c⟩, ⟨hm, hc1, hc2⟩, rfl⟩
    simp only [Dense.withHelpers, List.mem_append, List.mem_filter, Bool.not_eq_true', List.contains_eq_mem, decide_eq_false_iff_not] at hm
    rcases hm with hm | hm
    · obtain ⟨d, hd, h⟩ := List.mem_map.1 hm
      exact Or.inl ⟨d, hd, by rw [← h]⟩
    · right
      refine ⟨fun ⟨a, ha, e⟩ => hm.2 (List.mem_map.2 ⟨a, ha, e⟩), c, hm.1, by simpa using hc1, (aligned_iff x hx c).1 hc2⟩
  · rintro (⟨d, hd, rfl⟩ | ⟨hn, c, hc, h1, h2⟩)
    · refine ⟨(d.1, ⟨[d], fun p => (p d.1 : ℚ)⟩), ⟨?_, by simp, ?_⟩, rfl⟩
      · exact List.mem_append_left _ (List.mem_map.2 ⟨d, hd, rfl⟩)
      · rw [aligned_iff x hx]
        intro e he
        rw [List.mem_singleton.1 he]; exact hsub d hd
    · refine ⟨(n, c), ⟨?_, by simpa using h1, (aligned_iff x hx c).2 h2⟩, rfl⟩
      refine List.mem_append_right _ (List.mem_filter.2 ⟨hc, ?_⟩)
      simpa using hn

theorem flatten_moved (x : Dense) (hx : x.WF) (extra : List (Dim × Nat)) (hnd : (extra.map (·.1)).Nodup) (hsub : ∀ d ∈ extra, d ∈ x.dims) (u : Dim) :
    moved ((x.withHelpers extra).flatten u) (extra.map helperKey) =
      (positions x.dims).map (fun q => (only extra q, (x.withHelpers extra).event q)) := by
  have hkd : (extra.map helperKey).map (·.dim) = extra.map (·.1) := by rw [List.map_map]; rfl
  unfold moved
  show List.filterMap _ ((positions x.dims).map _) = _
  rw [List.filterMap_map]
  refine Eq.trans (List.filterMap_congr (g := some ∘ fun q => (only extra q, (x.withHelpers extra).event q)) ?_) (by rw [List.filterMap_eq_map])
  intro q hq
  simp only [Function.comp]
  have hidx : ∀ k ∈ extra.map helperKey, idx ((x.withHelpers extra).flatten u) k (fun _ => 0, (x.withHelpers extra).event q) = some (q k.dim) := by
    intro k hk
    obtain ⟨d, hd, rfl⟩ := List.mem_map.1 hk
    have hmem : (helperKey d).dim ∈ ((x.withHelpers extra).flatten u).eventCoords :=
      (flatten_events x hx extra hsub u _).2 (Or.inl (List.mem_map.2 ⟨d, hd, rfl⟩))
    unfold idx Arr.value?
    simp only [List.contains_iff_mem, hmem, if_true, Option.bind_some]
    have : ((x.withHelpers extra).event q).coord (helperKey d).dim = (q d.1 : ℚ) := by
      show (((x.withHelpers extra).frame.coord? d.1).map fun c => c.val q).getD 0 = _
      rw [withHelpers_extra x extra hnd d hd]; rfl
    rw [this]
    exact helperKey_index d _ (((positions_mem x.dims hx.dims q).1 hq).1 d (hsub d hd))
  cases hp : place ((x.withHelpers extra).flatten u) (fun _ => 0) ((x.withHelpers extra).event q) (extra.map helperKey) (fun _ => 0) with
  | none =>
    obtain ⟨k, hk, h⟩ := place_none _ (fun _ => 0, (x.withHelpers extra).event q) _ _ hp
    rw [hidx k hk] at h; cases h
  | some r =>
    obtain ⟨h1, h2⟩ := place_some _ (fun _ => 0, (x.withHelpers extra).event q) _ _ r (by rw [hkd]; exact hnd) hp
    have : r = only extra q := by
      funext d
      unfold only
      split
      · rename_i hd
        obtain ⟨e, he, rfl⟩ := List.mem_map.1 hd
        have a := h1 (helperKey e) (List.mem_map.2 ⟨e, he, rfl⟩)
        rw [hidx _ (List.mem_map.2 ⟨e, he, rfl⟩)] at a
        exact (Option.some.inj a).symm
      · rename_i hd
        refine h2 d ?_
        intro k hk e
        exact hd (by rw [← hkd]; exact List.mem_map.2 ⟨k, hk, e⟩)
    subst this
    rfl

/-- What `prepare` returns. -/
structure Prepared (x : Dense) (extra : List (Dim × Nat)) (y : Arr) : Prop where
  dims : y.dims = extra
  items : y.items = (positions x.dims).map (fun q => (only extra q, (x.withHelpers extra).event q))
  events : ∀ n, n ∈ y.eventCoords ↔ n ∉ extra.map (·.1) ∧ ∃ c, (n, c) ∈ x.coords ∧ c.dims ≠ [] ∧ ∀ d ∈ c.dims, d ∈ x.dims
  named : Named y
  coords : ∀ n c, (n, c) ∈ y.coords ↔ (n, c) ∈ x.coords ∧ ∀ d ∈ c.dims, d.1 ∈ extra.map (·.1)

theorem flatten_named (x : Dense) (hx : x.WF) (extra : List (Dim × Nat)) (hnd : (extra.map (·.1)).Nodup) (u : Dim) :
    Named ((x.withHelpers extra).flatten u) := by
  unfold Named
  refine List.Nodup.sublist (List.filter_sublist.map _) ?_
  show (List.map _ (extra.map _ ++ _)).Nodup
  rw [List.map_append, List.map_map, List.nodup_append]
  refine ⟨hnd, hx.coords.sublist (List.filter_sublist.map _), ?_⟩
  intro a ha b hb e
  subst e
  obtain ⟨c, hc, rfl⟩ := List.mem_map.1 hb
  have := (List.mem_filter.1 hc).2
  simp only [Bool.not_eq_true', List.contains_eq_mem, decide_eq_false_iff_not] at this
  exact this ha

theorem cppBin_dims (x : Arr) (keys : List Key) (erase : List Dim) (out : Arr) (h : cppBin x keys erase = .ok out) :
    out.dims = x.dims.filter (fun d => !erase.contains d.1 && !(keys.map (·.dim)).contains d.1) ++ keys.map (fun k => (k.dim, k.size)) := by
  unfold cppBin at h
  split at h
  · cases h
  · cases h; rfl

theorem prepare_spec (order : List (Dim × Nat) → List (Dim × Nat)) (horder : ∀ l, (order l).Perm l) (u : Dim) (x : Dense) (hx : x.WF)
    (names : List Dim) (y : Arr) (h : prepare order u x names = .ok y) :
    ∃ op, single (x.opDims names) = some op ∧ Prepared x (order (x.dims.filter (fun d => d.1 != op))) y := by
  unfold prepare at h
  cases hop : single (x.opDims names) with
  | none => rw [hop] at h; cases h
  | some op =>
    rw [hop] at h
    refine ⟨op, rfl, ?_⟩
    obtain ⟨E, hE⟩ : ∃ E, order (x.dims.filter (fun d => d.1 != op)) = E := ⟨_, rfl⟩
    have hperm := horder (x.dims.filter (fun d => d.1 != op))
    rw [hE] at hperm
    simp only [hE] at h ⊢
    have hsub : ∀ d ∈ E, d ∈ x.dims := fun d hd => (List.mem_filter.1 (hperm.mem_iff.1 hd)).1
    have hnd : (E.map (·.1)).Nodup := (hperm.map _).nodup_iff.2 (hx.dims.sublist (List.filter_sublist.map _))
    split at h
    · cases h
    · rename_i z hz
      have hs := cppBin_step _ _ _ _ hz
      have hfn := flatten_named x hx E hnd u
      obtain ⟨hzn, hzc⟩ := cppBin_coords _ hfn _ _ _ hz
      obtain ⟨a1, a2, a3⟩ := assignCoords_same _ _ _ h
      have hkd : (E.map helperKey).map (·.dim) = E.map (·.1) := by rw [List.map_map]; rfl
      obtain ⟨hyn, hyc⟩ := assignCoords_coords _ _ _ (hzn.sublist (List.filter_sublist.map _))
        (hx.coords.sublist (List.filter_sublist.map _)) h
      refine ⟨?_, ?_, ?_, hyn, ?_⟩
      · rw [a2]
        show z.dims = E
        rw [cppBin_dims _ _ _ _ hz]
        have h1 : List.filter (fun d : Dim × Nat => !([u] : List Dim).contains d.1 && !((E.map helperKey).map (·.dim)).contains d.1)
            ((x.withHelpers E).flatten u).dims = [] := by
          simp [Dense.flatten]
        rw [h1, List.nil_append, List.map_map]
        conv_rhs => rw [← List.map_id E]
        refine List.map_congr_left ?_
        intro d _
        simp only [Function.comp, helperKey_size]
        rfl
      · rw [a1]
        show z.items = _
        rw [hs.items, flatten_moved x hx E hnd hsub u]
      · intro n
        rw [a3]
        show n ∈ z.eventCoords ↔ _
        rw [hs.events, flatten_events x hx E hsub]
        constructor
        · rintro ⟨h1 | h1, h2⟩
          · obtain ⟨d, hd, rfl⟩ := List.mem_map.1 h1
            exact absurd rfl (h2 (helperKey d) (List.mem_map.2 ⟨d, hd, rfl⟩) rfl)
          · exact h1
        · intro h1
          refine ⟨Or.inr h1, ?_⟩
          intro k hk _ e
          refine h1.1 ?_
          rw [← hkd]; exact List.mem_map.2 ⟨k, hk, e⟩
      · intro n c
        rw [hyc]
        have hin : ((n, c) ∈ x.coords.filter (fun c => c.2.dims.all (fun d => (E.map (·.1)).contains d.1))) ↔
            (n, c) ∈ x.coords ∧ ∀ d ∈ c.dims, d.1 ∈ E.map (·.1) := by
          simp only [List.mem_filter, List.all_eq_true, List.contains_iff_mem]
        rw [hin]
        constructor
        · rintro (h1 | ⟨h1, h2⟩)
          · exact h1
          · exfalso
            obtain ⟨h3, h4⟩ := List.mem_filter.1 h1
            simp only [Bool.not_eq_true', List.contains_eq_mem, decide_eq_false_iff_not] at h4
            rcases (hzc n c).1 h3 with ⟨k, hk, e, _⟩ | ⟨h5, _, _, _⟩
            · exact h4 (by rw [← hkd]; exact List.mem_map.2 ⟨k, hk, e.symm⟩)
            · have h5' := List.mem_filter.1 h5
              have hcd : c.dims = [] := by simpa using h5'.2
              refine h2 (List.mem_map.2 ⟨(n, c), List.mem_filter.2 ⟨?_, by simp [hcd]⟩, rfl⟩)
              rcases List.mem_append.1 h5'.1 with h6 | h6
              · obtain ⟨d, hd, e⟩ := List.mem_map.1 h6
                exact absurd (List.mem_map.2 ⟨d, hd, by rw [Prod.mk.injEq] at e; exact e.1⟩) h4
              · exact (List.mem_filter.1 h6).1
        · intro h1; exact Or.inl h1

theorem event_coord (x : Dense) (hx : x.WF) (extra : List (Dim × Nat)) (n : Dim) (hn : n ∉ extra.map (·.1)) (c : Coord) (hc : (n, c) ∈ x.coords) (q : Pos) :
    ((x.withHelpers extra).event q).coord n = c.val q := by
  show (((x.withHelpers extra).frame.coord? n).map fun c => c.val q).getD 0 = _
  rw [withHelpers_coord x extra n hn]
  have : x.frame.coord? n = some c := (find_name _ hx.coords n c).2 hc
  rw [this]; rfl

theorem coords_unique (x : Dense) (hx : x.WF) {n : Dim} {c c' : Coord} (h : (n, c) ∈ x.coords) (h' : (n, c') ∈ x.coords) : c = c' :=
  named_unique (x := x.frame) hx.coords h h'

theorem value_prepared (x : Dense) (hx : x.WF) (extra : List (Dim × Nat)) (y : Arr) (hy : Prepared x extra y) (op : Dim) (k : Key)
    (hop : k.dim ∈ y.eventCoords ∨ ∀ c d, (k.dim, c) ∈ x.coords → c.dims.getLast? = some d → d.1 = op) (hE : op ∉ extra.map (·.1))
    (hck : y.checkCoord k.dim = .ok ()) (q : Pos) (v : ℚ) :
    Value y k.dim (only extra q) ((x.withHelpers extra).event q) v ↔ ∃ c, (k.dim, c) ∈ x.coords ∧ v = c.val q := by
  unfold Value
  by_cases hev : k.dim ∈ y.eventCoords
  · obtain ⟨h1, c, hc, _⟩ := (hy.events _).1 hev
    simp only [hev, true_and, not_true_eq_false, false_and, or_false]
    rw [event_coord x hx extra _ h1 c hc q]
    constructor
    · intro h; exact ⟨c, hc, h⟩
    · rintro ⟨c', hc', h⟩
      rw [coords_unique x hx hc hc']; exact h
  · simp only [hev, false_and, not_false_eq_true, true_and, false_or]
    have hz : ∀ c, (k.dim, c) ∈ y.coords → c.dims = [] := by
      intro c hc
      obtain ⟨h1, h2⟩ := (hy.coords _ _).1 hc
      cases hl : c.dims.getLast? with
      | none => exact List.getLast?_eq_none_iff.1 hl
      | some d =>
        have := (hop.resolve_left hev) c d h1 hl
        exact absurd (this ▸ h2 d (List.mem_of_getLast? hl)) hE
    have hloc : ∀ c, (k.dim, c) ∈ y.coords → c.val (only extra q) = c.val q := by
      intro c hc
      refine hx.loc _ ((hy.coords _ _).1 hc).1 _ _ ?_
      intro d hd
      have hd' : d ∈ c.dims := hd
      rw [hz c hc] at hd'; cases hd'
    constructor
    · rintro ⟨c, hc, h⟩
      exact ⟨c, ((hy.coords _ _).1 hc).1, by rw [h, hloc c hc]⟩
    · rintro ⟨c, hc, h⟩
      unfold Arr.checkCoord at hck
      simp only [List.contains_iff_mem, hev, if_false] at hck
      split at hck
      · cases hck
      · rename_i c' hc'
        have hc'' := (find_name _ hy.named _ _).1 hc'
        have := coords_unique x hx hc ((hy.coords _ _).1 hc'').1
        subst this
        exact ⟨c, hc'', by rw [h, hloc c hc'']⟩

theorem belongs_prepared (x : Dense) (hx : x.WF) (extra : List (Dim × Nat)) (y : Arr) (hy : Prepared x extra y) (keys : List Key) (op : Dim)
    (hop : ∀ k ∈ keys, k.dim ∈ y.eventCoords ∨ ∀ c d, (k.dim, c) ∈ x.coords → c.dims.getLast? = some d → d.1 = op) (hE : ∀ d, d ∈ extra ↔ d ∈ x.dims ∧ d.1 ≠ op) (hck : ∀ k ∈ keys, y.checkCoord k.dim = .ok ()) (erase : List Dim)
    (p q : Pos) : Belongs y keys erase p (only extra q, (x.withHelpers extra).event q) ↔ x.Belongs keys (op :: erase) p q := by
  have hE' : op ∉ extra.map (·.1) := by
    intro h
    obtain ⟨d, hd, e⟩ := List.mem_map.1 h
    exact ((hE d).1 hd).2 e
  unfold Belongs Dense.Belongs
  refine and_congr ?_ ?_
  · rw [hy.dims]
    constructor
    · intro h d hd h1 h2
      simp only [List.mem_cons, not_or] at h1
      have hm : d ∈ extra := (hE d).2 ⟨hd, h1.1⟩
      have := h d hm h1.2 h2
      simpa only [only, List.mem_map.2 ⟨d, hm, rfl⟩, if_true] using this
    · intro h d hd h1 h2
      have hm := (hE d).1 hd
      have := h d hm.1 (by simp only [List.mem_cons, not_or]; exact ⟨hm.2, h1⟩) h2
      simpa only [only, List.mem_map.2 ⟨d, hd, rfl⟩, if_true] using this
  · refine forall_congr' fun k => forall_congr' fun hk => ?_
    simp only [value_prepared x hx extra y hy op k (hop k hk) hE' (hck k hk) q]
    constructor
    · rintro ⟨v, ⟨c, hc, rfl⟩, h⟩; exact ⟨c, hc, h⟩
    · rintro ⟨c, hc, h⟩; exact ⟨_, ⟨c, hc, rfl⟩, h⟩

theorem binDense_split (order : List (Dim × Nat) → List (Dim × Nat)) (horder : ∀ l, (order l).Perm l) (u : Dim) (x : Dense) (hx : x.WF)
    (keys : List Key) (dim : Option (List Dim)) (out : Arr) (h : binDense order u x keys dim = .ok out) :
    ∃ op y extra, x.Along keys op ∧ extra = order (x.dims.filter (fun d => d.1 != op)) ∧ (∀ d, d ∈ extra ↔ d ∈ x.dims ∧ d.1 ≠ op) ∧
      Prepared x extra y ∧ cppBin y keys (replacedDims x.frame (keys.map (·.dim)) dim) = .ok out := by
  unfold binDense at h
  simp only at h
  split at h
  · cases h
  · split at h
    · cases h
    · rename_i y hy
      obtain ⟨op, h1, h2⟩ := prepare_spec order horder u x hx _ y hy
      refine ⟨op, y, _, (along_iff x hx keys op).1 h1, rfl, ?_, h2, h⟩
      intro d
      rw [(horder _).mem_iff, List.mem_filter]
      simp

theorem along_unique (x : Dense) (keys : List Key) (op op' : Dim) (h : x.Along keys op) (h' : x.Along keys op') : op = op' := by
  obtain ⟨⟨k, hk, c, n, hc, hl⟩, _⟩ := h
  exact h'.2 k hk c _ hc hl

theorem dropCoords_wf (x : Dense) (hx : x.WF) (dims keep : List Dim) : (x.dropCoords dims keep).WF :=
  ⟨hx.dims, hx.coords.sublist (List.filter_sublist.map _), fun c hc => hx.loc c (List.mem_filter.1 hc).1⟩

theorem dropCoords_mem (x : Dense) (dims keep : List Dim) (n : Dim) (hn : n ∈ keep) (c : Coord) :
    (n, c) ∈ (x.dropCoords dims keep).coords ↔ (n, c) ∈ x.coords := by
  unfold Dense.dropCoords
  rw [List.mem_filter]
  simp [hn]

theorem dropCoords_along (x : Dense) (dims keep : List Dim) (keys : List Key) (hk : ∀ k ∈ keys, k.dim ∈ keep) (op : Dim) :
    (x.dropCoords dims keep).Along keys op ↔ x.Along keys op := by
  unfold Dense.Along
  refine and_congr ?_ ?_
  · refine exists_congr fun k => and_congr_right fun hk' => exists_congr fun c => exists_congr fun n => ?_
    rw [dropCoords_mem x dims keep _ (hk k hk')]
  · refine forall_congr' fun k => forall_congr' fun hk' => forall_congr' fun c => forall_congr' fun n => ?_
    rw [dropCoords_mem x dims keep _ (hk k hk')]

theorem dropCoords_belongs (x : Dense) (dims keep : List Dim) (keys : List Key) (hk : ∀ k ∈ keys, k.dim ∈ keep) (gone : List Dim) (p q : Pos) :
    (x.dropCoords dims keep).Belongs keys gone p q ↔ x.Belongs keys gone p q := by
  unfold Dense.Belongs
  refine and_congr Iff.rfl ?_
  refine forall_congr' fun k => forall_congr' fun hk' => exists_congr fun c => ?_
  rw [dropCoords_mem x dims keep _ (hk k hk')]

theorem makeHist_check (x : Arr) (k : Key) (erase : List Dim) (out : Hist) (h : makeHist x k erase = .ok out) : k.check = .ok () := by
  unfold makeHist at h
  dsimp only at h
  split at h
  · cases h
  · assumption

theorem expected_weights (x : Dense) (y : Arr) (extra : List (Dim × Nat)) (hy : Prepared x extra y) (keys : List Key) (erase : List Dim)
    (p : Pos) (P : Pos → Prop) [DecidablePred P]
    (h : ∀ q, Belongs y keys erase p (only extra q, (x.withHelpers extra).event q) ↔ P q) :
    (expected y keys erase p).map Event.weight = ((positions x.dims).filter (fun q => decide (P q))).map x.weight := by
  classical
  unfold expected
  rw [hy.items, List.filter_map, List.map_map, List.map_map]
  have : (positions x.dims).filter ((fun it => decide (Belongs y keys erase p it)) ∘ fun q => (only extra q, (x.withHelpers extra).event q)) =
      (positions x.dims).filter (fun q => decide (P q)) := by
    congr 1
    funext q
    simp only [Function.comp, decide_eq_decide]
    exact h q
  rw [this]
  rfl

end Scipp.MakeBinned
