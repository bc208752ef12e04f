import Verif.Lemmas.CurveFit

namespace Scipp.Props
open Scipp Scipp.CurveFit

variable {V : Type}

private theorem over_nodup (a : CurveFit.Array V) (h : (a.dims.map (·.1)).Nodup) (reduce : List Dim) (coords : List (Nat × Col V)) : ((mapOver a reduce coords).map (·.1)).Nodup :=
  h.sublist (List.Sublist.map _ List.filter_sublist)

private theorem curveFit_eq [Zero V] [DecidableEq V] (solve : Solver V) (coords : List (Nat × Col V)) (a : CurveFit.Array V) (p0 : List (Nat × Col V)) (bounds : List (Nat × Col V × Col V))
    (reduce : List Dim) : curveFit solve coords a p0 bounds reduce =
      (run solve (mapOver a reduce coords) { a with coords := coords } p0 bounds).bind (outputs a (mapOver a reduce coords)) := rfl

private theorem curveFit_run [Zero V] [DecidableEq V] {solve : Solver V} {coords : List (Nat × Col V)} {a : CurveFit.Array V} {p0 : List (Nat × Col V)} {bounds : List (Nat × Col V × Col V)}
    {reduce : List Dim} {out : Out V} (h : curveFit solve coords a p0 bounds reduce = .ok out) :
    ∃ rs, run solve (mapOver a reduce coords) { a with coords := coords } p0 bounds = .ok rs ∧ outputs a (mapOver a reduce coords) rs = .ok out := by
  rw [curveFit_eq] at h
  cases hr : run solve (mapOver a reduce coords) { a with coords := coords } p0 bounds with
  | error e => rw [hr] at h; cases h
  | ok rs => rw [hr] at h; exact ⟨rs, rfl, h⟩

private theorem outputs_ok {a : CurveFit.Array V} {dims : List (Dim × Nat)} {rs : List (Option (List V × List (List V)))} {out : Out V} (h : outputs a dims rs = .ok out) :
    out.dims = dims ∧ out.results = rs ∧ out.coords = a.coords.filter (fun e => e.2.dims.any (fun p => (dims.map (·.1)).contains p.1)) ∧
    out.masks = a.masks.filter (fun e => e.2.dims.all (fun p => (dims.map (·.1)).contains p.1)) ∧
    ∀ e ∈ a.coords, (∃ p ∈ e.2.dims, p.1 ∈ dims.map (·.1)) → canSet dims e.2.dims = true := by
  unfold outputs at h
  simp only at h
  split at h
  · rename_i hc
    obtain rfl := Except.ok.inj h
    refine ⟨rfl, rfl, rfl, rfl, ?_⟩
    intro e he hp
    rw [List.all_eq_true] at hc
    refine hc e (List.mem_filter.2 ⟨he, ?_⟩)
    obtain ⟨p, hp, hd⟩ := hp
    rw [List.any_eq_true]
    exact ⟨p, hp, List.contains_iff_mem.2 hd⟩
  · cases h

/-- C122 in part: the output has the dims which are neither reduced nor dims of the coords, in the order of the data. At each of its positions it has the fit of the slice there: of all elements of the slice which are
not masked, with the initial guesses and bounds at this position. -/
theorem C122_fits_partial [Zero V] [DecidableEq V] (solve : Solver V) (coords : List (Nat × Col V)) (a : CurveFit.Array V) (p0 : List (Nat × Col V)) (bounds : List (Nat × Col V × Col V))
    (reduce : List Dim) (hw : WF coords a p0 bounds) (out : Out V) (h : curveFit solve coords a p0 bounds reduce = .ok out) :
    (∀ d n, (d, n) ∈ out.dims ↔ (d, n) ∈ a.dims ∧ d ∉ reduce ∧ ∀ e ∈ coords, ∀ p ∈ e.2.dims, p.1 ≠ d) ∧ out.dims.Sublist a.dims ∧
    out.results.length = volume out.dims ∧
    ∀ c, Inside out.dims c → ∃ r, out.results[flat out.dims c]? = some r ∧ IsFit solve coords a p0 bounds (out.dims.map (·.1)) c r := by
  obtain ⟨rs, hr, ho⟩ := curveFit_run h
  obtain ⟨h1, h2, _, _, _⟩ := outputs_ok ho
  rw [run_eq _ _ { a with coords := coords } _ _ hw.coords hw.masks hw.p0 hw.bounds] at hr
  obtain ⟨h3, h4⟩ := mapM_get hr
  rw [h1, h2]
  refine ⟨?_, List.filter_sublist, by rw [h3, positions_length], ?_⟩
  · intro d n
    unfold mapOver
    rw [List.mem_filter, Bool.and_eq_true, Bool.not_eq_true', Bool.not_eq_true']
    refine and_congr_right fun _ => and_congr ?_ ?_
    · simp
    · simp only [List.any_eq_false, List.contains_iff_mem]
      constructor
      · intro h e he p hp hpd
        exact h e he (List.mem_map.2 ⟨p, hp, hpd⟩)
      · intro h e he hm
        obtain ⟨p, hp, hpd⟩ := List.mem_map.1 hm
        exact h e he p hp hpd
  · intro c hc
    obtain ⟨c', h5, h6⟩ := positions_get _ (over_nodup a hw.dims reduce coords) c hc
    obtain ⟨r, h7, h8⟩ := h4 _ _ h5
    refine ⟨r, h7, ?_⟩
    rw [leaf_ok solve coords a p0 bounds hw] at h8
    have hag : ∀ d ∈ (mapOver a reduce coords).map (·.1), c' d = c d := by
      intro d hd
      obtain ⟨p, hp, rfl⟩ := List.mem_map.1 hd
      exact h6 p hp
    obtain ⟨hF, hI⟩ := h8
    unfold IsFit pointsAt at hI ⊢
    have e1 : merge ((mapOver a reduce coords).map (·.1)) c' = merge ((mapOver a reduce coords).map (·.1)) c := by
      funext q; exact merge_congr hag q
    have e2 : (p0.map fun e => e.2.el c') = p0.map fun e => e.2.el c :=
      List.map_congr_left fun e he => hw.p0 e he _ _ fun p hp => hag _ (hF.1 e he p hp)
    have e3 : (bounds.map fun e => (e.2.1.el c', e.2.2.el c')) = bounds.map fun e => (e.2.1.el c, e.2.2.el c) :=
      List.map_congr_left fun e he => by
        rw [(hw.bounds e he).1 c' c fun p hp => hag _ ((hF.2 e he).1 p hp), (hw.bounds e he).2 c' c fun p hp => hag _ ((hF.2 e he).2 p hp)]
    rw [e1, e2, e3] at hI
    exact hI

/-- Dims 2 (length 2) and 1 (length 3), a coord along 1, a mask for two elements. -/
private def c122a : CurveFit.Array Int :=
  ⟨[(2, 2), (1, 3)], fun c => 10 * c 2 + c 1, none, [(1, ⟨[(1, 3)], fun c => c 1⟩), (2, ⟨[(2, 3)], fun c => c 2⟩)], [(7, ⟨[(2, 2), (1, 3)], fun c => c 2 == 1 && c 1 != 0⟩), (8, ⟨[(2, 2)], fun _ => false⟩)]⟩

/-- The coord to fit. -/
private def c122x : List (Nat × Col Int) := [(1, ⟨[(1, 3)], fun c => c 1⟩)]

/-- A parameter with a guess for every slice. -/
private def c122p : List (Nat × Col Int) := [(5, ⟨[(2, 2)], fun c => 100 * c 2⟩)]

/-- A solver that adds up values and guess. -/
private def c122s : Solver Int := fun pts p0 _ _ => .ok ([(pts.map (·.2)).sum + p0.sum], [])

private theorem c122wf : WF c122x c122a c122p [] := by
  refine ⟨by decide, ?_, ?_, ?_, by simp⟩
  · intro e he
    rw [c122x, List.mem_singleton] at he
    subst he
    intro c c' h
    have := h (1, 3) (by simp)
    simp only at this
    simp only [this]
  · intro e he
    simp only [c122a, List.mem_cons, List.not_mem_nil, or_false] at he
    rcases he with rfl | rfl
    · intro c c' h
      have h1 := h (1, 3) (by simp)
      have h2 := h (2, 2) (by simp)
      simp only at h1 h2
      simp only [h1, h2]
    · intro c c' _
      rfl
  · intro e he
    rw [c122p, List.mem_singleton] at he
    subst he
    intro c c' h
    have := h (2, 2) (by simp)
    simp only at this
    simp only [this]

/-- Two slices: three points with guess 0, and one point with guess 100. -/
example : WF c122x c122a c122p [] ∧ (curveFit c122s c122x c122a c122p [] []).toOption.map (fun o => (o.dims, o.results, o.coords.map (·.1), o.masks.map (·.1))) =
    some ([(2, 2)], [some ([3], []), some ([110], [])], [2], [8]) := ⟨c122wf, rfl⟩

/-- All dims in one fit: a guess with a dim is an error, a number is fine. -/
example : curveFit c122s c122x c122a c122p [] [2] = .error .dimension ∧
    (curveFit c122s c122x c122a [(5, ⟨[], fun _ => 100⟩)] [] [2]).toOption.map (fun o => (o.dims, o.results)) = some ([], [some ([113], [])]) :=
  ⟨rfl, rfl⟩

/-- Fewer points than parameters: NaN for the second slice only. -/
example : (curveFit c122s c122x c122a [(5, ⟨[], fun _ => 100⟩), (6, ⟨[], fun _ => 0⟩)] [] []).toOption.map (fun o => o.results) = some [some ([103], []), none] := by
  decide +kernel

/-- C122: coords that depend on a dim of the output and masks which depend on no other dims are those of the output. -/
theorem C122_metadata [Zero V] [DecidableEq V] (solve : Solver V) (coords : List (Nat × Col V)) (a : CurveFit.Array V) (p0 : List (Nat × Col V)) (bounds : List (Nat × Col V × Col V))
    (reduce : List Dim) (out : Out V) (h : curveFit solve coords a p0 bounds reduce = .ok out) :
    (∀ e, e ∈ out.coords ↔ e ∈ a.coords ∧ ∃ p ∈ e.2.dims, p.1 ∈ out.dims.map (·.1)) ∧
    (∀ e, e ∈ out.masks ↔ e ∈ a.masks ∧ ∀ p ∈ e.2.dims, p.1 ∈ out.dims.map (·.1)) := by
  obtain ⟨rs, hr, ho⟩ := curveFit_run h
  obtain ⟨h1, h2, h3, h4, _⟩ := outputs_ok ho
  rw [h1, h3, h4]
  refine ⟨fun e => ?_, fun e => ?_⟩
  · rw [List.mem_filter, List.any_eq_true]
    simp only [List.contains_iff_mem]
  · rw [List.mem_filter, List.all_eq_true]
    simp only [List.contains_iff_mem]

/-- C122 in part: if every slice can be fitted, guesses and bounds have no dims other than those of the output, and no coord depends on dims of the output and others, there is an output. -/
theorem C122_succeeds_partial [Zero V] [DecidableEq V] (solve : Solver V) (coords : List (Nat × Col V)) (a : CurveFit.Array V) (p0 : List (Nat × Col V)) (bounds : List (Nat × Col V × Col V))
    (reduce : List Dim) (hw : WF coords a p0 bounds)
    (hp0 : ∀ e ∈ p0, ∀ p ∈ e.2.dims, p.1 ∈ (mapOver a reduce coords).map (·.1))
    (hb : ∀ e ∈ bounds, ∀ p ∈ e.2.1.dims ++ e.2.2.dims, p.1 ∈ (mapOver a reduce coords).map (·.1))
    (hf : ∀ c, Inside (mapOver a reduce coords) c → ∃ r, IsFit solve coords a p0 bounds ((mapOver a reduce coords).map (·.1)) c r)
    (hc : ∀ e ∈ a.coords, (∃ p ∈ e.2.dims, p.1 ∈ (mapOver a reduce coords).map (·.1)) → ∀ p ∈ e.2.dims, p ∈ mapOver a reduce coords) :
    ∃ out, curveFit solve coords a p0 bounds reduce = .ok out := by
  have hrun : ∃ rs, run solve (mapOver a reduce coords) { a with coords := coords } p0 bounds = .ok rs := by
    rw [run_eq _ _ { a with coords := coords } _ _ hw.coords hw.masks hw.p0 hw.bounds]
    refine mapM_ok fun c hc => ?_
    obtain ⟨r, hr⟩ := hf c (positions_inside _ (over_nodup a hw.dims reduce coords) c hc)
    refine ⟨r, (leaf_ok solve coords a p0 bounds hw _ c r).2 ⟨⟨hp0, fun e he => ⟨fun p hp => ?_, fun p hp => ?_⟩⟩, hr⟩⟩
    · exact hb e he p (List.mem_append_left _ hp)
    · exact hb e he p (List.mem_append_right _ hp)
  obtain ⟨rs, hrs⟩ := hrun
  refine ⟨⟨mapOver a reduce coords, rs, a.coords.filter (fun e => e.2.dims.any (fun p => ((mapOver a reduce coords).map (·.1)).contains p.1)),
    a.masks.filter (fun e => e.2.dims.all (fun p => ((mapOver a reduce coords).map (·.1)).contains p.1))⟩, ?_⟩
  rw [curveFit_eq]
  rw [hrs]
  show outputs a (mapOver a reduce coords) rs = _
  unfold outputs
  simp only
  rw [if_pos]
  rw [List.all_eq_true]
  intro e he
  obtain ⟨he, hp⟩ := List.mem_filter.1 he
  rw [List.any_eq_true] at hp
  obtain ⟨p, hp, hd⟩ := hp
  exact canSet_true (over_nodup a hw.dims reduce coords) (hc e he ⟨p, hp, List.contains_iff_mem.1 hd⟩)

/-- C122: the points of a slice: every element is among them exactly if it is not masked and lies in the slice, and no element is taken twice. -/
theorem C122_points (a : CurveFit.Array V) (hd : (a.dims.map (·.1)).Nodup) (hm : ∀ e ∈ a.masks, e.2.WF ∧ ∀ p ∈ e.2.dims, p.1 ∈ a.dims.map (·.1)) (ds : List Dim) (c q : Pos)
    (hq : Inside a.dims q) :
    ((∃ q' ∈ pointsAt a ds c, ∀ p ∈ a.dims, q' p.1 = q p.1) ↔ (∀ e ∈ a.masks, e.2.el q = false) ∧ ∀ p ∈ a.dims, p.1 ∈ ds → q p.1 = c p.1) ∧
    (pointsAt a ds c).Pairwise fun x y => ∃ p ∈ a.dims, x p.1 ≠ y p.1 := by
  have hsub : ((a.dims.filter fun p => decide (p.1 ∉ ds)).map (·.1)).Nodup := hd.sublist (List.Sublist.map _ List.filter_sublist)
  have hmask : ∀ q', (∀ p ∈ a.dims, q' p.1 = q p.1) → ∀ e ∈ a.masks, e.2.el q' = e.2.el q := by
    intro q' h e he
    refine (hm e he).1 _ _ fun p hp => ?_
    obtain ⟨p', hp', h'⟩ := List.mem_map.1 ((hm e he).2 p hp)
    rw [← h']
    exact h p' hp'
  refine ⟨⟨?_, ?_⟩, ?_⟩
  · rintro ⟨q', hq', h⟩
    obtain ⟨h1, h2⟩ := List.mem_filter.1 hq'
    obtain ⟨c', hc', rfl⟩ := List.mem_map.1 h1
    have h2' : ∀ e ∈ a.masks, e.2.el (merge ds c c') = false := by simpa using h2
    refine ⟨fun e he => by rw [← hmask _ h e he]; exact h2' e he, ?_⟩
    intro p hp hpd
    rw [← h p hp]
    simp [merge, hpd]
  · rintro ⟨h1, h2⟩
    obtain ⟨c', h3, h4⟩ := positions_get (a.dims.filter fun p => decide (p.1 ∉ ds)) hsub q (fun p hp => hq p (List.mem_filter.1 hp).1)
    have h5 : ∀ p ∈ a.dims, merge ds c c' p.1 = q p.1 := by
      intro p hp
      by_cases hpd : p.1 ∈ ds
      · simp [merge, hpd, h2 p hp hpd]
      · simp only [merge, hpd, if_false]
        exact h4 p (List.mem_filter.2 ⟨hp, by simpa using hpd⟩)
    refine ⟨merge ds c c', List.mem_filter.2 ⟨List.mem_map.2 ⟨c', List.mem_of_getElem? h3, rfl⟩, ?_⟩, h5⟩
    have : ∀ e ∈ a.masks, e.2.el (merge ds c c') = false := fun e he => by rw [hmask _ h5 e he]; exact h1 e he
    simpa using this
  · refine List.Pairwise.filter _ ?_
    rw [List.pairwise_map]
    refine (positions_distinct _ hsub).imp ?_
    rintro x y ⟨p, hp, h⟩
    obtain ⟨hp, hpd⟩ := List.mem_filter.1 hp
    have hpd : p.1 ∉ ds := by simpa using hpd
    exact ⟨p, hp, by simpa [merge, hpd] using h⟩

/-- C122: what is masked does not matter, be it values or variances. -/
theorem C122_masked [Zero V] [DecidableEq V] (solve : Solver V) (coords : List (Nat × Col V)) (a : CurveFit.Array V) (p0 : List (Nat × Col V)) (bounds : List (Nat × Col V × Col V))
    (reduce : List Dim) (hw : WF coords a p0 bounds) (val : Pos → V) (var : Option (Pos → V))
    (h1 : ∀ c, (∀ e ∈ a.masks, e.2.el c = false) → val c = a.val c)
    (h2 : var.isSome = a.var.isSome ∧ ∀ f g, var = some f → a.var = some g → ∀ c, (∀ e ∈ a.masks, e.2.el c = false) → f c = g c) (out : Out V) :
    curveFit solve coords { a with val := val, var := var } p0 bounds reduce = .ok out ↔ curveFit solve coords a p0 bounds reduce = .ok out := by
  have hw' : WF coords { a with val := val, var := var } p0 bounds := ⟨hw.dims, hw.coords, hw.masks, hw.p0, hw.bounds⟩
  have hfit : ∀ ds c r, IsFit solve coords { a with val := val, var := var } p0 bounds ds c r ↔ IsFit solve coords a p0 bounds ds c r := by
    intro ds c r
    have hpt : pointsAt { a with val := val, var := var } ds c = pointsAt a ds c := rfl
    have hun : ∀ q ∈ pointsAt a ds c, ∀ e ∈ a.masks, e.2.el q = false := by
      intro q hq
      simpa using (List.mem_filter.1 hq).2
    unfold IsFit
    rw [hpt]
    have e1 : ((pointsAt a ds c).map fun q => (coords.map (fun e => e.2.el q), val q)) = (pointsAt a ds c).map fun q => (coords.map (fun e => e.2.el q), a.val q) :=
      List.map_congr_left fun q hq => by rw [h1 q (hun q hq)]
    have e2 : (var.map fun f => (pointsAt a ds c).map f) = a.var.map fun f => (pointsAt a ds c).map f := by
      cases hv : var with
      | none =>
        cases ha : a.var with
        | none => rfl
        | some g => rw [hv, ha] at h2; exact absurd h2.1 (by simp)
      | some f =>
        cases ha : a.var with
        | none => rw [hv, ha] at h2; exact absurd h2.1 (by simp)
        | some g =>
          simp only [Option.map_some, Option.some.injEq]
          exact List.map_congr_left fun q hq => h2.2 f g hv ha q (hun q hq)
    have e3 : (∀ f, var = some f → ∀ q ∈ pointsAt a ds c, f q ≠ 0) ↔ ∀ f, a.var = some f → ∀ q ∈ pointsAt a ds c, f q ≠ 0 := by
      cases hv : var with
      | none =>
        cases ha : a.var with
        | none => exact Iff.rfl
        | some g => rw [hv, ha] at h2; exact absurd h2.1 (by simp)
      | some f =>
        cases ha : a.var with
        | none => rw [hv, ha] at h2; exact absurd h2.1 (by simp)
        | some g =>
          constructor
          · intro h f' hf' q hq
            obtain rfl := Option.some.inj hf'
            rw [← h2.2 f _ hv ha q (hun q hq)]
            exact h f rfl q hq
          · intro h f' hf' q hq
            obtain rfl := Option.some.inj hf'
            rw [h2.2 _ g hv ha q (hun q hq)]
            exact h g rfl q hq
    simp only [e1, e2, e3]
  have hrun : ∀ rs, run solve (mapOver a reduce coords) { a with val := val, var := var, coords := coords } p0 bounds = .ok rs ↔
      run solve (mapOver a reduce coords) { a with coords := coords } p0 bounds = .ok rs := by
    have key : ∀ (b b' : CurveFit.Array V), WF coords b p0 bounds → WF coords b' p0 bounds →
        (∀ ds c r, IsFit solve coords b p0 bounds ds c r → IsFit solve coords b' p0 bounds ds c r) →
        ∀ over rs, run solve over { b with coords := coords } p0 bounds = .ok rs → run solve over { b' with coords := coords } p0 bounds = .ok rs := by
      intro b b' hb hb' hi over rs hr
      rw [run_eq _ _ { b with coords := coords } _ _ hb.coords hb.masks hb.p0 hb.bounds] at hr
      rw [run_eq _ _ { b' with coords := coords } _ _ hb'.coords hb'.masks hb'.p0 hb'.bounds]
      obtain ⟨_, hg⟩ := mapM_get hr
      rw [← hr]
      refine mapM_congr_left fun c hc => ?_
      obtain ⟨i, hi'⟩ := List.mem_iff_getElem?.1 hc
      obtain ⟨r, _, h8⟩ := hg i c hi'
      rw [h8]
      obtain ⟨hF, hI⟩ := (leaf_ok solve coords b p0 bounds hb _ c r).1 h8
      exact (leaf_ok solve coords b' p0 bounds hb' _ c r).2 ⟨hF, hi _ c r hI⟩
    intro rs
    exact ⟨key { a with val := val, var := var } a hw' hw (fun ds c r => (hfit ds c r).1) _ rs, key a { a with val := val, var := var } hw hw' (fun ds c r => (hfit ds c r).2) _ rs⟩
  have ho : ∀ rs, outputs { a with val := val, var := var } (mapOver a reduce coords) rs = outputs a (mapOver a reduce coords) rs := fun _ => rfl
  constructor
  · intro h
    obtain ⟨rs, hr, h3⟩ := curveFit_run h
    have h4 := (hrun rs).1 hr
    rw [curveFit_eq]
    rw [h4]
    exact h3
  · intro h
    obtain ⟨rs, hr, h3⟩ := curveFit_run h
    have h4 := (hrun rs).2 hr
    rw [curveFit_eq]
    show (run solve (mapOver a reduce coords) { a with val := val, var := var, coords := coords } p0 bounds).bind _ = _
    rw [h4]
    exact h3

/-- C122: a coord which is not used in the fit, but depends on a dim of the output and on another one, makes every fit fail (unless the other dim has length 2, which is taken for bin edges). -/
theorem C122_wrong_coord [Zero V] [DecidableEq V] (solve : Solver V) (coords : List (Nat × Col V)) (a : CurveFit.Array V) (p0 : List (Nat × Col V)) (bounds : List (Nat × Col V × Col V))
    (reduce : List Dim) (e : Nat × Col V) (he : e ∈ a.coords) (y x : Dim) (m n : Nat) (hy : (y, m) ∈ e.2.dims) (hx : (x, n) ∈ e.2.dims) (hn : n ≠ 2)
    (hyo : y ∈ (mapOver a reduce coords).map (·.1)) (hxo : x ∉ (mapOver a reduce coords).map (·.1)) (out : Out V) : curveFit solve coords a p0 bounds reduce ≠ .ok out := by
  intro h
  obtain ⟨rs, hr, ho⟩ := curveFit_run h
  obtain ⟨_, _, _, _, h5⟩ := outputs_ok ho
  have := h5 e he ⟨(y, m), hy, hyo⟩
  rw [canSet_false hxo hn hx] at this
  cases this

/-- The array of the example with another coord that depends on both dims. -/
example (out : Out Int) : curveFit c122s c122x { c122a with coords := [(3, ⟨[(2, 2), (1, 3)], fun c => c 1 + c 2⟩)] } c122p [] [] ≠ .ok out :=
  C122_wrong_coord (V := Int) c122s c122x { c122a with coords := [(3, ⟨[(2, 2), (1, 3)], fun c => c 1 + c 2⟩)] } c122p [] []
    (3, ⟨[(2, 2), (1, 3)], fun c => c 1 + c 2⟩) List.mem_cons_self 2 1 2 3 (by simp) (by simp) (by decide) (by decide) (by decide) out

/-- Other values where masked. -/
example (out : Out Int) : curveFit c122s c122x { c122a with val := fun c => if c 2 = 1 ∧ c 1 ≠ 0 then 99 else 10 * c 2 + c 1, var := none } c122p [] [] = .ok out ↔
    curveFit c122s c122x c122a c122p [] [] = .ok out := by
  refine C122_masked _ _ c122a _ _ _ c122wf _ none ?_ ⟨rfl, by simp⟩ out
  intro c hc
  have := hc (7, ⟨[(2, 2), (1, 3)], fun c => c 2 == 1 && c 1 != 0⟩) (by simp [c122a])
  simp only [Bool.and_eq_false_iff, beq_eq_false_iff_ne, bne_eq_false_iff_eq] at this
  rw [if_neg (by rcases this with h | h <;> simp [h])]
  rfl

end Scipp.Props
