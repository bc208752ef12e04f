import Verif.Lemmas.DenseBin
import Mathlib.Tactic.IntervalCases

namespace Scipp.Props
open Scipp Scipp.MakeBinned

/-- The positions visited by the model are those of the elements, each once. -/
theorem C118_positions (x : Dense) (hx : x.WF) : (positions x.dims).Nodup ∧ ∀ q, q ∈ positions x.dims ↔ x.Inside q :=
  ⟨positions_nodup x.dims hx.dims, positions_mem x.dims hx.dims⟩

/-- C118: `bin` and `group` of dense data put into the bin at a position exactly the elements that belong there, with their weights and coords. The
dims which disappear are those to be replaced and the inner dim of the coords of the keys. -/
theorem C118_contents (order : List (Dim × Nat) → List (Dim × Nat)) (horder : ∀ l, (order l).Perm l) (u : Dim) (x : Dense) (hx : x.WF)
    (keys : List Key) (dim : Option (List Dim)) (out : Arr) (h : binDense order u x keys dim = .ok out) (erase : List Dim)
    (her : erase = replacedDims x.frame (keys.map (·.dim)) dim) (p : Pos) :
    ∃ op, x.Along keys op ∧ ∃ l : List Pos, l.Nodup ∧ (∀ q, q ∈ l ↔ x.Inside q ∧ x.Belongs keys (op :: erase) p q) ∧
      List.Forall₂ (x.IsEvent out.eventCoords) (contents out p) l := by
  subst her
  obtain ⟨op, y, extra, hop, _, hE, hy, hc⟩ := binDense_split order horder u x hx keys dim out h
  refine ⟨op, hop, ?_⟩
  classical
  have hs := cppBin_step _ _ _ _ hc
  have hck := ((checkArgs_ok _ _).1 (cppBin_args _ _ _ _ hc)).2.2.2
  refine ⟨(positions x.dims).filter (fun q => x.Belongs keys (op :: replacedDims x.frame (keys.map (·.dim)) dim) p q),
    (positions_nodup x.dims hx.dims).filter _, ?_, ?_⟩
  · intro q
    rw [List.mem_filter, positions_mem x.dims hx.dims]
    simp [Dense.Inside]
  · rw [step_contents y hy.named keys _ out hs p]
    unfold expected
    rw [hy.items, List.filter_map, List.map_map]
    rw [List.forall₂_map_left_iff]
    have hfil : (positions x.dims).filter ((fun it => decide (Belongs y keys (replacedDims x.frame (keys.map (·.dim)) dim) p it)) ∘
        fun q => (only extra q, (x.withHelpers extra).event q)) =
        (positions x.dims).filter (fun q => decide (x.Belongs keys (op :: replacedDims x.frame (keys.map (·.dim)) dim) p q)) := by
      congr 1
      funext q
      simp only [Function.comp, decide_eq_decide]
      exact belongs_prepared x hx extra y hy keys op (fun k hk => Or.inr (hop.2 k hk)) hE hck _ p q
    rw [hfil]
    refine List.forall₂_same.2 ?_
    intro q _
    refine ⟨rfl, ?_⟩
    intro n hn
    obtain ⟨h1, c, hc', _⟩ := (hy.events n).1 ((hs.events n).1 hn).1
    exact ⟨c, hc', event_coord x hx extra n h1 c hc' q⟩

/-- C118 in part: The dims of the output are those of the input which do not disappear, and one for every key. What is missing is their order: see
`C118_wrong_order`. -/
theorem C118_dims_partial (order : List (Dim × Nat) → List (Dim × Nat)) (horder : ∀ l, (order l).Perm l) (u : Dim) (x : Dense) (hx : x.WF)
    (keys : List Key) (dim : Option (List Dim)) (out : Arr) (h : binDense order u x keys dim = .ok out) (erase : List Dim)
    (her : erase = replacedDims x.frame (keys.map (·.dim)) dim) :
    ∃ op, x.Along keys op ∧ (out.dims.map (·.1)).Nodup ∧ ∃ rest, out.dims = rest ++ keys.map (fun k => (k.dim, k.size)) ∧
      ∀ d, d ∈ rest ↔ d ∈ x.dims ∧ d.1 ≠ op ∧ d.1 ∉ erase ∧ ∀ k ∈ keys, k.dim ≠ d.1 := by
  subst her
  obtain ⟨op, y, extra, hop, hex, hE, hy, hc⟩ := binDense_split order horder u x hx keys dim out h
  have hs := cppBin_step _ _ _ _ hc
  have hnd : (extra.map (·.1)).Nodup := by
    rw [hex]; exact ((horder _).map _).nodup_iff.2 (hx.dims.sublist (List.filter_sublist.map _))
  have hd := cppBin_dims _ _ _ _ hc
  have hm : ∀ d, d ∈ y.dims.filter (fun d => !(replacedDims x.frame (keys.map (·.dim)) dim).contains d.1 && !(keys.map (·.dim)).contains d.1) ↔
      d ∈ x.dims ∧ d.1 ≠ op ∧ d.1 ∉ replacedDims x.frame (keys.map (·.dim)) dim ∧ ∀ k ∈ keys, k.dim ≠ d.1 := by
    intro d
    rw [List.mem_filter, hy.dims, hE, and_assoc]
    simp only [Bool.and_eq_true, Bool.not_eq_true', List.contains_eq_mem, decide_eq_false_iff_not, List.mem_map, not_exists, not_and]
  refine ⟨op, hop, ?_, _, hd, hm⟩
  rw [hd, List.map_append, List.map_map, List.nodup_append]
  refine ⟨?_, hs.nodup, ?_⟩
  · rw [hy.dims]; exact hnd.sublist (List.filter_sublist.map _)
  · intro a ha b hb e
    subst e
    obtain ⟨d, hd', rfl⟩ := List.mem_map.1 ha
    obtain ⟨k, hk, e⟩ := List.mem_map.1 hb
    exact ((hm d).1 hd').2.2.2 k hk e

/-- C118 in part: The coords of the events are those of the input which have dims and no edges, except those used for grouping. Missing are coords
named like one of the other dims: see `C118_wrong_lost`. -/
theorem C118_event_coords_partial (order : List (Dim × Nat) → List (Dim × Nat)) (horder : ∀ l, (order l).Perm l) (u : Dim) (x : Dense) (hx : x.WF)
    (keys : List Key) (dim : Option (List Dim)) (out : Arr) (h : binDense order u x keys dim = .ok out) :
    ∃ op, x.Along keys op ∧ ∀ n, (∀ d ∈ x.dims, d.1 = n → n = op) →
      (n ∈ out.eventCoords ↔ (∃ c, (n, c) ∈ x.coords ∧ c.dims ≠ [] ∧ ∀ d ∈ c.dims, d ∈ x.dims) ∧ ∀ k ∈ keys, k.edges = false → k.dim ≠ n) := by
  obtain ⟨op, y, extra, hop, _, hE, hy, hc⟩ := binDense_split order horder u x hx keys dim out h
  refine ⟨op, hop, ?_⟩
  intro n hn
  rw [(cppBin_step _ _ _ _ hc).events, hy.events]
  have : n ∉ extra.map (·.1) := by
    intro hm
    obtain ⟨d, hd, e⟩ := List.mem_map.1 hm
    have := (hE d).1 hd
    exact this.2 (e ▸ hn d this.1 e)
  simp only [this, not_false_eq_true, true_and]

/-- C118: The coords of the bins are the keys, and the coords of the input which do not depend on a dim that disappears or is replaced. -/
theorem C118_bin_coords (order : List (Dim × Nat) → List (Dim × Nat)) (horder : ∀ l, (order l).Perm l) (u : Dim) (x : Dense) (hx : x.WF)
    (hfit : ∀ c ∈ x.coords, ∀ d ∈ c.2.dims, d.1 ∈ x.dims.map (·.1))
    (keys : List Key) (dim : Option (List Dim)) (out : Arr) (h : binDense order u x keys dim = .ok out) (erase : List Dim)
    (her : erase = replacedDims x.frame (keys.map (·.dim)) dim) :
    ∃ op, x.Along keys op ∧ ∀ n c, (n, c) ∈ out.coords ↔ (∃ k ∈ keys, n = k.dim ∧ c = k.coord) ∨
      ((n, c) ∈ x.coords ∧ n ∉ keys.map (·.dim) ∧ c.Free (op :: erase) ∧ c.Free (keys.map (·.dim))) := by
  subst her
  obtain ⟨op, y, extra, hop, _, hE, hy, hc⟩ := binDense_split order horder u x hx keys dim out h
  refine ⟨op, hop, ?_⟩
  intro n c
  rw [(cppBin_coords y hy.named keys _ out hc).2, hy.coords]
  refine or_congr_right ?_
  have key : (n, c) ∈ x.coords → ((∀ d ∈ c.dims, d.1 ∈ extra.map (·.1)) ↔ ∀ d ∈ c.dims, d.1 ≠ op) := by
    intro hm
    refine forall_congr' fun d => forall_congr' fun hd => ?_
    obtain ⟨e, he, hed⟩ := List.mem_map.1 (hfit _ hm d hd)
    constructor
    · intro h1 h2
      obtain ⟨a, ha, hae⟩ := List.mem_map.1 h1
      exact ((hE a).1 ha).2 (hae.trans h2)
    · intro h1
      exact List.mem_map.2 ⟨e, (hE e).2 ⟨he, fun h => h1 (hed.symm.trans h)⟩, hed⟩
  have hfree : c.Free (op :: replacedDims x.frame (keys.map (·.dim)) dim) ↔ (∀ d ∈ c.dims, d.1 ≠ op) ∧ c.Free (replacedDims x.frame (keys.map (·.dim)) dim) := by
    unfold Coord.Free
    simp only [List.mem_cons, not_or]
    exact ⟨fun h => ⟨fun d hd => (h d hd).1, fun d hd => (h d hd).2⟩, fun h d hd => ⟨h.1 d hd, h.2 d hd⟩⟩
  rw [hfree]
  constructor
  · rintro ⟨⟨h1, h2⟩, h3, h4, h5⟩; exact ⟨h1, h3, ⟨(key h1).1 h2, h4⟩, h5⟩
  · rintro ⟨h1, h3, ⟨h2, h4⟩, h5⟩; exact ⟨⟨h1, (key h1).2 h2⟩, h3, h4, h5⟩

/-- C118 in part: Binning succeeds for valid keys if the coords of all keys have the same inner dim and no key is named like another dim. What is
missing fails: see `C118_wrong_name`, `C118_wrong_inner`. -/
theorem C118_succeeds_partial (order : List (Dim × Nat) → List (Dim × Nat)) (horder : ∀ l, (order l).Perm l) (u : Dim) (x : Dense) (hx : x.WF)
    (hfit : ∀ c ∈ x.coords, ∀ d ∈ c.2.dims, ∃ n, (d.1, n) ∈ x.dims ∧ (d.2 = n ∨ d.2 = n + 1))
    (keys : List Key) (dim : Option (List Dim)) (hnd : (keys.map (·.dim)).Nodup)
    (hedges : ∀ k ∈ keys, k.edges = true → 2 ≤ k.values.length ∧ ∀ i, i + 1 < k.values.length → k.values.getD i 0 ≤ k.values.getD (i + 1) 0)
    (hgroups : ∀ k ∈ keys, k.edges = false → k.values.Nodup) (op : Dim) (hop : x.Along keys op) (hmore : ∃ d ∈ x.dims, d.1 ≠ op)
    (hcoord : ∀ k ∈ keys, ∃ c, (k.dim, c) ∈ x.coords ∧ ∀ d ∈ c.dims, d ∈ x.dims)
    (hname : ∀ k ∈ keys, ∀ d ∈ x.dims, d.1 = k.dim → d.1 = op) : ∃ out, binDense order u x keys dim = .ok out := by
  have hck : ∀ k ∈ keys, k.check = .ok () := by
    intro k hk
    unfold Key.check
    split
    · rename_i he
      obtain ⟨h1, h2⟩ := hedges k hk he
      rw [if_neg (by omega), if_pos (ascending_of _ h2)]
    · rename_i he
      rw [if_pos (hgroups k hk (by simpa using he))]
  have hs : single (x.opDims (keys.map (·.dim))) = some op := (along_iff x hx keys op).2 hop
  obtain ⟨E, hE⟩ : ∃ E, order (x.dims.filter (fun d => d.1 != op)) = E := ⟨_, rfl⟩
  have hperm := horder (x.dims.filter (fun d => d.1 != op))
  rw [hE] at hperm
  have hm : ∀ d, d ∈ E ↔ d ∈ x.dims ∧ d.1 ≠ op := by intro d; rw [hperm.mem_iff, List.mem_filter]; simp
  have hEnd : (E.map (·.1)).Nodup := (hperm.map _).nodup_iff.2 (hx.dims.sublist (List.filter_sublist.map _))
  have hprep : ∃ y, prepare order u x (keys.map (·.dim)) = .ok y := by
    unfold prepare
    rw [hs]
    simp only [hE]
    have hargs : checkArgs ((x.withHelpers E).flatten u) (E.map helperKey) = .ok () := by
      refine (checkArgs_ok _ _).2 ⟨?_, ?_, ?_, ?_⟩
      · obtain ⟨d, hd, hd'⟩ := hmore
        intro h0
        have := (hm d).2 ⟨hd, hd'⟩
        rw [List.map_eq_nil_iff.1 h0] at this; cases this
      · rw [List.map_map]; exact hEnd
      · intro k hk
        obtain ⟨d, _, rfl⟩ := List.mem_map.1 hk
        exact helperKey_check d
      · intro k hk
        obtain ⟨d, hd, rfl⟩ := List.mem_map.1 hk
        have : (helperKey d).dim ∈ ((x.withHelpers E).flatten u).eventCoords :=
          (flatten_events x hx E (fun d hd => ((hm d).1 hd).1) u _).2 (Or.inl (List.mem_map.2 ⟨d, hd, rfl⟩))
        unfold Arr.checkCoord
        rw [if_pos (by simpa using this)]
    obtain ⟨z, hz⟩ := cppBin_ok _ _ [u] hargs
    rw [hz]
    refine assignCoords_ok _ _ ?_
    intro c hc
    obtain ⟨h1, h2⟩ := List.mem_filter.1 hc
    unfold fits
    rw [List.all_eq_true]
    intro d hd
    have hzd : z.dims = E := by
      rw [cppBin_dims _ _ _ _ hz]
      have h1 : List.filter (fun d : Dim × Nat => !([u] : List Dim).contains d.1 && !((E.map helperKey).map (·.dim)).contains d.1)
          ((x.withHelpers E).flatten u).dims = [] := by simp [Dense.flatten]
      rw [h1, List.nil_append, List.map_map]
      conv_rhs => rw [← List.map_id E]
      refine List.map_congr_left ?_
      intro d _
      simp only [Function.comp, helperKey_size]
      rfl
    obtain ⟨n, hn, hn'⟩ := hfit c h1 d hd
    have hin : d.1 ∈ E.map (·.1) := by
      have := List.all_eq_true.1 h2 d hd
      simpa using this
    have hne : d.1 ≠ op := by
      obtain ⟨e, he, hed⟩ := List.mem_map.1 hin
      exact hed ▸ ((hm e).1 he).2
    have hsz : Arr.size? { z with coords := z.coords.filter (fun c => !(E.map (·.1)).contains c.1) } d.1 = some n := by
      refine (size_iff _ ?_ _ _).2 ?_
      · show (z.dims.map (·.1)).Nodup
        rw [hzd]; exact hEnd
      · show (d.1, n) ∈ z.dims
        rw [hzd]; exact (hm _).2 ⟨hn, hne⟩
    rw [hsz]
    simpa using hn'
  obtain ⟨y, hy⟩ := hprep
  obtain ⟨op', hs', hp⟩ := prepare_spec order horder u x hx _ y hy
  rw [hs] at hs'
  cases hs'
  rw [hE] at hp
  unfold binDense
  have hcl : keys.any (fun k => (replacedDims x.frame (keys.map (·.dim)) dim).contains k.dim) = false := by
    rw [List.any_eq_false]
    intro k hk
    simp only [List.contains_iff_mem]
    intro hin
    unfold replacedDims at hin
    have := (List.mem_filter.1 hin).2
    simp only [Bool.and_eq_true, Bool.not_eq_true', List.contains_eq_mem, decide_eq_false_iff_not] at this
    exact this.2 (List.mem_map.2 ⟨k, hk, rfl⟩)
  simp only [hcl, Bool.false_eq_true, if_false, hy]
  refine cppBin_ok _ _ _ ((checkArgs_ok _ _).2 ⟨?_, hnd, hck, ?_⟩)
  · rintro rfl
    obtain ⟨⟨k, hk, _⟩, _⟩ := hop
    cases hk
  · intro k hk
    obtain ⟨c, hc, hal⟩ := hcoord k hk
    have hkE : k.dim ∉ E.map (·.1) := by
      intro h
      obtain ⟨d, hd, e⟩ := List.mem_map.1 h
      have := (hm d).1 hd
      exact this.2 (hname k hk d this.1 e)
    unfold Arr.checkCoord
    by_cases hd : c.dims = []
    · split
      · rfl
      · have : y.coord? k.dim = some c := (find_name _ hp.named _ _).2 ((hp.coords _ _).2 ⟨hc, by simp [hd]⟩)
        rw [this]
        simp [hd]
    · rw [if_pos]
      simp only [List.contains_iff_mem]
      exact (hp.events _).2 ⟨hkE, c, hc, hd, hal⟩

/-- C118 in part: `hist` with several keys gives in every bin the sum of the elements that belong there, if the coord of the last key has dims, no
edges, and is not named like a dim. -/
theorem C118_hist_partial (order : List (Dim × Nat) → List (Dim × Nat)) (horder : ∀ l, (order l).Perm l) (u : Dim) (x : Dense) (hx : x.WF)
    (first : List Key) (last : Key) (dim : Option (List Dim)) (out : Hist) (h : histDense order u x first last dim = .ok out)
    (hedges : ∀ k ∈ first, k.edges = true) (hlast : ∀ k ∈ first, k.dim ≠ last.dim)
    (hc : ∃ c, (last.dim, c) ∈ x.coords ∧ c.dims ≠ [] ∧ ∀ d ∈ c.dims, d ∈ x.dims) (hn : last.dim ∉ x.dims.map (·.1)) (erase : List Dim)
    (her : erase = replacedDims x.frame ((first ++ [last]).map (·.dim)) dim) :
    ∃ op, x.Along first op ∧
      (∀ d, d ∈ out.dims ↔ (d ∈ x.dims ∧ d.1 ≠ op ∧ d.1 ∉ erase ∧ ∀ k ∈ first ++ [last], k.dim ≠ d.1) ∨ ∃ k ∈ first ++ [last], d = (k.dim, k.size)) ∧
      ∀ p, ∃ l : List Pos, l.Nodup ∧ (∀ q, q ∈ l ↔ x.Inside q ∧ x.Belongs (first ++ [last]) (op :: erase) p q) ∧
        out.value p = (l.map x.weight).sum := by
  unfold histDense at h
  have hnames : first.map (·.dim) ++ [last.dim] = (first ++ [last]).map (·.dim) := by simp
  simp only [hnames, ← her] at h
  have hmem : ∀ k ∈ first ++ [last], k.dim ∈ (first ++ [last]).map (·.dim) := fun k hk => List.mem_map.2 ⟨k, hk, rfl⟩
  obtain ⟨names, hnm⟩ : ∃ names, (first ++ [last]).map (·.dim) = names := ⟨_, rfl⟩
  rw [hnm] at h hmem
  have hx' := dropCoords_wf x hx erase names
  split at h
  · cases h
  split at h
  · cases h
  rename_i y hy
  split at h
  · cases h
  rename_i b hb
  obtain ⟨op, h1, hp⟩ := prepare_spec order horder u _ hx' _ y hy
  have hop' := (along_iff _ hx' first op).1 h1
  have hop := (dropCoords_along x erase names first (fun k hk => hmem k (List.mem_append_left _ hk)) op).1 hop'
  obtain ⟨E, hE⟩ : ∃ E, order ((x.dropCoords erase names).dims.filter (fun d => d.1 != op)) = E := ⟨_, rfl⟩
  have hperm := horder ((x.dropCoords erase names).dims.filter (fun d => d.1 != op))
  rw [hE] at hperm hp
  have hm : ∀ d, d ∈ E ↔ d ∈ (x.dropCoords erase names).dims ∧ d.1 ≠ op := by intro d; rw [hperm.mem_iff, List.mem_filter]; simp
  have hs := cppBin_step _ _ _ _ hb
  have hbn := (cppBin_coords y hp.named first erase b hb).1
  have hye : last.dim ∈ y.eventCoords := by
    obtain ⟨c, hc1, hc2, hc3⟩ := hc
    refine (hp.events _).2 ⟨?_, c, (dropCoords_mem x erase names _ (hmem last (by simp)) c).2 hc1, hc2, hc3⟩
    intro hl
    obtain ⟨d, hd, e⟩ := List.mem_map.1 hl
    exact hn (List.mem_map.2 ⟨d, ((hm d).1 hd).1, e⟩)
  have hbe : last.dim ∈ b.eventCoords := by
    refine (hs.events _).2 ⟨hye, ?_⟩
    intro k hk he
    rw [hedges k hk] at he; cases he
  obtain ⟨hv, hd⟩ := makeHist_result b hbn last [] out h (Or.inl hbe)
  have hlc := makeHist_check _ _ _ _ h
  obtain ⟨b', hb'⟩ := cppBin_ok b [last] [] ((checkArgs_ok _ _).2 ⟨by simp, by simp, by simpa using hlc, by
    intro k hk
    rw [List.mem_singleton.1 hk]
    unfold Arr.checkCoord
    rw [if_pos (by simpa using hbe)]⟩)
  have hs2 := step_step_distinct y b b' first [last] erase hs (cppBin_step _ _ _ _ hb')
    (by intro k hk; rw [List.mem_singleton.1 hk]; exact ⟨hye, hbe⟩)
    (by intro a ha c hc; rw [List.mem_singleton.1 hc]; exact hlast a ha)
  refine ⟨op, hop, ?_, ?_⟩
  · intro d
    have e1 : d ∈ out.dims ↔ d ∈ b'.dims := by
      rw [hd, cppBin_dims _ _ _ _ hb']
    rw [e1, hs2.dims.mem_iff, List.mem_append, List.mem_filter, hp.dims, hm, and_assoc]
    simp only [Bool.and_eq_true, Bool.not_eq_true', List.contains_eq_mem, decide_eq_false_iff_not]
    refine or_congr ?_ ?_
    · refine and_congr_right fun _ => and_congr_right fun _ => and_congr_right fun _ => ?_
      rw [List.mem_map]
      exact ⟨fun h k hk e => h ⟨k, hk, e⟩, fun h ⟨k, hk, e⟩ => h k hk e⟩
    · rw [List.mem_map]
      exact ⟨fun ⟨k, hk, e⟩ => ⟨k, hk, e.symm⟩, fun ⟨k, hk, e⟩ => ⟨k, hk, e.symm⟩⟩
  · intro p
    classical
    refine ⟨(positions x.dims).filter (fun q => x.Belongs (first ++ [last]) (op :: erase) p q), (positions_nodup x.dims hx.dims).filter _, ?_, ?_⟩
    · intro q
      rw [List.mem_filter, positions_mem x.dims hx.dims]
      simp [Dense.Inside]
    · rw [hv p, ← step_contents b hbn [last] [] b' (cppBin_step _ _ _ _ hb') p, step_contents y hp.named _ erase b' hs2 p]
      have hyc : ∀ k ∈ first ++ [last], y.checkCoord k.dim = .ok () := by
        intro k hk
        rcases List.mem_append.1 hk with hk | hk
        · exact ((checkArgs_ok _ _).1 (cppBin_args _ _ _ _ hb)).2.2.2 k hk
        · rw [List.mem_singleton.1 hk]
          unfold Arr.checkCoord
          rw [if_pos (by simpa using hye)]
      rw [expected_weights (x.dropCoords erase names) y E hp (first ++ [last]) erase p (fun q => x.Belongs (first ++ [last]) (op :: erase) p q) ?_]
      · rfl
      · intro q
        rw [belongs_prepared _ hx' E y hp (first ++ [last]) op ?_ hm hyc erase p q, dropCoords_belongs x erase names _ hmem]
        intro k hk
        rcases List.mem_append.1 hk with hk | hk
        · exact Or.inr (hop'.2 k hk)
        · rw [List.mem_singleton.1 hk]; exact Or.inl hye

/-! Two dims: 1 with two, 2 with three elements; coord 5 depends on both, coord 6 on dim 2, coord 7 on dim 1. -/

private def c118x : Dense :=
  ⟨[(1, 2), (2, 3)], [(5, ⟨[(1, 2), (2, 3)], fun p => 3 * p 1 + p 2⟩), (6, ⟨[(2, 3)], fun p => p 2⟩), (7, ⟨[(1, 2)], fun p => 10 * p 1⟩)],
    fun p => 1 + 3 * p 1 + p 2⟩

private theorem c118wf : c118x.WF := by
  refine ⟨by decide, by decide, ?_⟩
  intro c hc p q h
  simp only [c118x, List.mem_cons, List.not_mem_nil, or_false] at hc
  rcases hc with rfl | rfl | rfl <;> simp_all

private def c118w (r : Except Err Arr) (i j k : Nat) : Option (List ℚ) :=
  r.toOption.map (fun out => (contents out (fun d => if d = 1 then i else if d = 6 then j else if d = 5 then k else 0)).map (·.weight))

example : (binDense id 9 c118x [⟨6, [0, 1, 3], true⟩] none).toOption.map (fun o => (o.dims, o.eventCoords, o.coords.map (·.1))) =
    some ([(1, 2), (6, 2)], [5, 6, 7], [6, 7]) := by decide +kernel

example : [c118w (binDense id 9 c118x [⟨6, [0, 1, 3], true⟩] none) 0 0 0, c118w (binDense id 9 c118x [⟨6, [0, 1, 3], true⟩] none) 1 1 0,
    c118w (binDense id 9 c118x [⟨5, [0, 4, 8], true⟩] none) 0 0 0, c118w (binDense id 9 c118x [⟨6, [0, 1, 3], true⟩, ⟨5, [0, 4, 8], true⟩] none) 0 1 1] =
    [some [1], some [5, 6], some [1, 2, 3, 4], some [5, 6]] := by decide +kernel

private theorem c118along : c118x.Along [⟨6, [0, 1, 3], true⟩, ⟨5, [4, 2], false⟩] 2 := by
  refine (along_iff c118x c118wf _ 2).1 (by decide)

private theorem c118fit : ∀ c ∈ c118x.coords, ∀ d ∈ c.2.dims, ∃ n, (d.1, n) ∈ c118x.dims ∧ (d.2 = n ∨ d.2 = n + 1) := by
  intro c hc d hd
  simp only [c118x, List.mem_cons, List.not_mem_nil, or_false] at hc
  refine ⟨d.2, ?_, Or.inl rfl⟩
  rcases hc with rfl | rfl | rfl <;> simp [c118x] at hd ⊢ <;> aesop

private theorem c118ok : ∃ out, binDense List.reverse 9 c118x [⟨6, [0, 1, 3], true⟩, ⟨5, [4, 2], false⟩] (some [2]) = .ok out := by
  refine C118_succeeds_partial List.reverse List.reverse_perm 9 c118x c118wf c118fit _ _ (by decide) ?_ ?_ 2 c118along ⟨(1, 2), by decide, by decide⟩
    ?_ (by decide)
  · intro k hk he
    simp only [List.mem_cons, List.not_mem_nil, or_false] at hk
    rcases hk with rfl | rfl
    · refine ⟨by decide, ?_⟩
      intro i hi
      have : i < 2 := by simp only [List.length_cons, List.length_nil] at hi; omega
      interval_cases i <;> simp
    · cases he
  · intro k hk he
    simp only [List.mem_cons, List.not_mem_nil, or_false] at hk
    rcases hk with rfl | rfl
    · cases he
    · decide
  · intro k hk
    simp only [List.mem_cons, List.not_mem_nil, or_false] at hk
    rcases hk with rfl | rfl
    · exact ⟨⟨[(2, 3)], fun p => p 2⟩, by simp [c118x], by simp [c118x]⟩
    · exact ⟨⟨[(1, 2), (2, 3)], fun p => 3 * p 1 + p 2⟩, by simp [c118x], by simp [c118x]⟩

example : ∃ out op rest, binDense List.reverse 9 c118x [⟨6, [0, 1, 3], true⟩, ⟨5, [4, 2], false⟩] (some [2]) = .ok out ∧
    out.dims = rest ++ [(6, 2), (5, 2)] ∧ (∀ d, d ∈ rest ↔ d ∈ c118x.dims ∧ d.1 ≠ op ∧ d.1 ∉ replacedDims c118x.frame [6, 5] (some [2]) ∧
      ∀ k ∈ [6, 5], k ≠ d.1) ∧ 6 ∈ out.eventCoords ∧ 5 ∉ out.eventCoords := by
  obtain ⟨out, h⟩ := c118ok
  obtain ⟨op, _, _, rest, h1, h2⟩ := C118_dims_partial _ List.reverse_perm 9 c118x c118wf _ _ out h _ rfl
  obtain ⟨op', _, h3⟩ := C118_event_coords_partial _ List.reverse_perm 9 c118x c118wf _ _ out h
  refine ⟨out, op, rest, h, h1, ?_, ?_, ?_⟩
  · intro d; rw [h2 d]; simp
  · refine (h3 6 (by simp [c118x])).2 ⟨⟨⟨[(2, 3)], fun p => p 2⟩, by simp [c118x], by simp, by simp [c118x]⟩, by simp⟩
  · intro h5
    exact ((h3 5 (by simp [c118x])).1 h5).2 ⟨5, [4, 2], false⟩ (by simp) rfl rfl

example (p : Pos) : ∃ (out : Arr) (op : Dim) (l : List Pos), binDense List.reverse 9 c118x [⟨6, [0, 1, 3], true⟩, ⟨5, [4, 2], false⟩] (some [2]) = .ok out ∧
    (∀ q, q ∈ l ↔ c118x.Inside q ∧ c118x.Belongs [⟨6, [0, 1, 3], true⟩, ⟨5, [4, 2], false⟩] (op :: [2]) p q) ∧ (contents out p).length = l.length := by
  obtain ⟨out, h⟩ := c118ok
  obtain ⟨op, _, l, _, h1, h2⟩ := C118_contents _ List.reverse_perm 9 c118x c118wf _ _ out h [2] (by decide) p
  exact ⟨out, op, l, h, h1, h2.length_eq⟩

example : ∃ out, binDense List.reverse 9 c118x [⟨6, [0, 1, 3], true⟩, ⟨5, [4, 2], false⟩] (some [2]) = .ok out ∧
    (5, (⟨5, [4, 2], false⟩ : Key).coord) ∈ out.coords := by
  obtain ⟨out, h⟩ := c118ok
  obtain ⟨op, _, h1⟩ := C118_bin_coords _ List.reverse_perm 9 c118x c118wf
    (fun c hc d hd => by obtain ⟨n, hn, _⟩ := c118fit c hc d hd; exact List.mem_map.2 ⟨_, hn, rfl⟩) _ _ out h _ rfl
  exact ⟨out, h, (h1 _ _).2 (Or.inl ⟨_, by simp, rfl, rfl⟩)⟩

example : (positions c118x.dims).length = 6 ∧ (positions c118x.dims).Nodup := ⟨by decide, (C118_positions c118x c118wf).1⟩

example : (histDense id 9 c118x [⟨6, [0, 1, 3], true⟩] ⟨5, [0, 4, 8], true⟩ none).toOption.map (fun h =>
    (h.dims, [h.value (fun _ => 0), h.value (fun d => if d = 6 then 1 else 0), h.value (fun _ => 1)])) =
    some ([(6, 2), (5, 2)], [1 + 4, 2 + 3, 5 + 6]) := by decide +kernel

example (out : Hist) (h : histDense id 9 c118x [⟨6, [0, 1, 3], true⟩] ⟨5, [0, 4, 8], true⟩ none = .ok out) :
    ∃ op, c118x.Along [⟨6, [0, 1, 3], true⟩] op ∧ ((6, 2) ∈ out.dims) := by
  obtain ⟨op, h1, h2, _⟩ := C118_hist_partial id (fun l => List.Perm.refl l) 9 c118x c118wf _ _ none out h (by simp) (by simp)
    ⟨⟨[(1, 2), (2, 3)], fun p => 3 * p 1 + p 2⟩, by simp [c118x], by simp, by simp [c118x]⟩ (by decide) _ rfl
  exact ⟨op, h1, (h2 _).2 (Or.inr ⟨⟨6, [0, 1, 3], true⟩, by simp, rfl⟩)⟩

/-! ## Where the code falls short -/

private def c118three : Dense := ⟨[(1, 1), (2, 1), (3, 1)], [(6, ⟨[(3, 1)], fun _ => 0⟩)], fun _ => 1⟩

/-- C118 fails: the other dims are kept in a set, so their order in the output is that of the set. For strings it changes from one run of the
program to the next. -/
theorem C118_wrong_order :
    ((binDense id 9 c118three [⟨6, [0, 1], true⟩] none).toOption.map (·.dims) = some [(1, 1), (2, 1), (6, 1)] ∧
     (binDense List.reverse 9 c118three [⟨6, [0, 1], true⟩] none).toOption.map (·.dims) = some [(2, 1), (1, 1), (6, 1)]) := by decide +kernel

private def c118named (n : Dim) : Dense :=
  ⟨[(1, 2), (2, 3)], [(n, ⟨[(1, 2), (2, 3)], fun p => 3 * p 1 + p 2⟩), (6, ⟨[(2, 3)], fun p => p 2⟩)], fun _ => 1⟩

/-- C118 fails: the helper coords replace the coords named like the other dims, so binning by such a coord fails for lack of it. By any other name
it succeeds. -/
theorem C118_wrong_name : (binDense id 9 (c118named 1) [⟨1, [0, 9], true⟩] none).toOption.isNone = true ∧
    (binDense id 9 (c118named 5) [⟨5, [0, 9], true⟩] none).toOption.isSome = true := by decide +kernel

/-- C118 fails: when binning by another coord, a coord of that name is silently dropped; by any other name it remains. -/
theorem C118_wrong_lost :
    (binDense id 9 (c118named 1) [⟨6, [0, 9], true⟩] none).toOption.map (fun o => (o.eventCoords, o.coords.map (·.1))) = some ([6], [6]) ∧
    (binDense id 9 (c118named 5) [⟨6, [0, 9], true⟩] none).toOption.map (fun o => (o.eventCoords, o.coords.map (·.1))) = some ([5, 6], [6]) := by
  decide +kernel

/-- C118 fails: whether two coords with the same dims can be used together depends on the order of their dims. -/
theorem C118_wrong_inner : ∀ c : Coord, c = ⟨[(2, 3), (1, 2)], fun p => p 1 + p 2⟩ →
    (binDense id 9 ⟨[(1, 2), (2, 3)], [(5, ⟨[(1, 2), (2, 3)], c.val⟩), (6, c)], fun _ => 1⟩ [⟨5, [0, 9], true⟩, ⟨6, [0, 9], true⟩] none).toOption.isNone =
      true ∧
    (binDense id 9 ⟨[(1, 2), (2, 3)], [(5, ⟨[(1, 2), (2, 3)], c.val⟩), (6, ⟨[(1, 2), (2, 3)], c.val⟩)], fun _ => 1⟩
      [⟨5, [0, 9], true⟩, ⟨6, [0, 9], true⟩] none).toOption.isSome = true := by
  rintro c rfl
  decide +kernel

/-- C118 fails: a dim disappears although `dim` says that none should. -/
theorem C118_wrong_dim : (binDense id 9 c118x [⟨6, [0, 1, 3], true⟩] (some [])).toOption.map (·.dims) = some [(1, 2), (6, 2)] := by decide +kernel

end Scipp.Props
