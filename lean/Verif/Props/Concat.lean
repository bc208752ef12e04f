import Verif.Lemmas.Concat3
/-!
C43: concatenation. Slicing the concatenation of several arrays at the cumulative offsets gives back the arrays; the extent is the sum
of the extents; inputs lacking the dimension count as length one; concatenating bin edges joins them exactly if adjacent edges match.
-/
namespace Scipp.Props
open Scipp Scipp.Sizes Scipp.Concat
variable {V : Type}

/-- C43 for variables: `concat` gives a well-formed array with the sum of the extents (dims that are absent count as one) and otherwise the
dims of the inputs, whose part starting at the cumulative offset has the elements of the corresponding input. Nothing of the
uninitialised output remains. -/
theorem C43_concat {junk : V} {vars : List (CVar V)} {dim : Dim} {r : CVar V} (hv : ∀ x ∈ vars, x.arr.Ok) (h : concat junk vars dim = .ok r) :
    r.arr.Ok ∧ (dim, (vars.map (fun x => extentOf x.dims dim)).sum) ∈ r.dims ∧
      (∀ p : Dim × Int, p.1 ≠ dim → (p ∈ r.dims ↔ ∃ x ∈ vars, p ∈ x.dims)) ∧
      ∀ (i : Nat) x, vars[i]? = some x → IsPart r.arr dim (offsetAt (vars.map CVar.dims) dim i) (extentOf x.dims dim) x.arr := by
  obtain ⟨h1, h2, h3, h4, _, h6⟩ := concat_spec hv h
  exact ⟨h1, h2, fun p hp => ⟨fun hm => h4 p hm hp, fun ⟨x, hx, hm⟩ => h3 x hx p hm hp⟩, fun i x hx c _ h0 h1 => h6 i x hx c h0 h1⟩

/-- C43: the concatenation succeeds for arrays with the same other dims, in any order, and the same unit, dtype and presence of
variances. -/
theorem C43_concat_succeeds {junk : V} {vars : List (CVar V)} {dim : Dim} {O : Dims} {u k : Nat} (hv : ∀ x ∈ vars, x.arr.Ok) (hne : vars ≠ [])
    (hdim : dim ≠ Dim.invalid) (ho : ∀ x ∈ vars, SameOther dim x.dims O) (hu : ∀ x ∈ vars, x.unit = u ∧ x.kind = k) :
    ∃ r, concat junk vars dim = .ok r := concat_exists hv hne hdim ho hu

/-- The loop of `concat`, units: once something has been copied the unit of the output cannot change any more. -/
theorem copy_loop_unit {dim : Dim} {D : Dims} {stride : Int} (hD : WF D) (hs : Dims.offset D dim = .ok stride) (hpos : 0 < stride) :
    ∀ (l : List (CVar V)) (st r : CVar V × Int), (∀ x ∈ l, x.arr.Ok) → st.1.dims = D → 0 ≤ st.2 →
    l.foldlM (copySlice dim) st = .ok r →
    (0 < st.2 → r.1.unit = st.1.unit) ∧ ∀ x ∈ l, 0 < extentOf x.dims dim → x.unit = r.1.unit
  | [], st, r, _, _, _, h => by
    rw [List.foldlM_nil] at h
    cases h
    exact ⟨fun _ => rfl, by simp⟩
  | x :: l, st, r, hl, hd, h0, h => by
    rw [List.foldlM_cons] at h
    cases h1 : copySlice dim st x with
    | error e => rw [h1] at h; cases h
    | ok s1 =>
      rw [h1] at h
      obtain ⟨c1, c2, c3, -, -, -, c7, -⟩ := copySlice_ok (by rw [hd]; exact hD) h1 (hl x (by simp)).wf
      have hex : 0 ≤ extentOf x.dims dim := extentOf_nonneg (hl x (by simp)).wf dim
      obtain ⟨i1, i2⟩ := copy_loop_unit hD hs hpos l s1 r (fun y hy => hl y (by simp [hy])) (c3.trans hd) (by omega) h
      have hunit : 0 < st.2 → x.unit = st.1.unit := by
        intro hst
        unfold copySlice at h1
        split at h1
        · cases h1
        · split at h1
          · cases h1
          · split at h1
            · cases h1
            · split at h1
              · cases h1
              · rename_i can hcan
                have : can = false := by
                  unfold canSetUnit at hcan
                  rw [hd, hs] at hcan
                  have hne : ¬ st.2 * stride = 0 := by
                    have := mul_pos hst hpos
                    omega
                  simp only [Except.ok.injEq] at hcan
                  rw [← hcan, beq_eq_false_iff_ne.2 hne, Bool.false_and]
                subst this
                split at h1
                · cases h1
                · split at h1
                  · cases h1
                  · rename_i hu
                    simpa [eq_comm] using hu
      refine ⟨fun hst => ?_, ?_⟩
      · rw [i1 (by omega), c7, hunit hst]
      · intro y hy hy0
        rcases List.mem_cons.1 hy with rfl | hy
        · rw [i1 (by omega), c7]
        · exact i2 y hy hy0

/-- C43: units and dtypes. If the result has elements, then its unit is that of every array that contributed some, and its
kind is that of all of them: arrays in different units are never mixed. For results without elements the unit is arbitrary, and an
empty array in another unit is accepted at the beginning, see `C43_unit_of_empty_input`. -/
theorem C43_unit {junk : V} {vars : List (CVar V)} {dim : Dim} {r : CVar V} (hv : ∀ x ∈ vars, x.arr.Ok) (h : concat junk vars dim = .ok r)
    (hr : 0 < Dims.volume r.dims) :
    (∀ x ∈ vars, 0 < extentOf x.dims dim → x.unit = r.unit) ∧ ∀ x ∈ vars, x.kind = r.kind := by
  refine ⟨?_, (concat_spec hv h).2.2.2.2.1⟩
  cases vars with
  | nil => cases h
  | cons front rest =>
    obtain ⟨vars, hvars⟩ : ∃ vars, vars = front :: rest := ⟨_, rfl⟩
    simp only [Concat.concat] at h
    rw [← hvars] at h hv ⊢
    cases h1 : expandedDims vars front dim with
    | error e => simp only [h1] at h; cases h
    | ok E =>
      simp only [h1] at h
      obtain ⟨e1, e2, e3, -⟩ := expandedDims_ok (by simp [hvars]) hv h1
      cases h2 : vars.mapM (expand E dim) with
      | error e => simp only [h2] at h; cases h
      | ok tmp =>
        simp only [h2] at h
        obtain ⟨t1, t2⟩ := mapM_get _ _ _ h2
        have hto : ∀ y ∈ tmp, y.arr.Ok := by
          intro y hy
          obtain ⟨i, hi, hiy⟩ := List.getElem_of_mem hy
          obtain ⟨b, hb1, hb2⟩ := t2 i vars[i] (List.getElem?_eq_getElem (by omega))
          rw [List.getElem?_eq_getElem hi, Option.some.injEq, hiy] at hb1
          subst hb1
          exact (expand_ok e1 e2 e3 (hv _ (List.getElem_mem _)) hb2).1
        cases h3 : totalSize dim tmp with
        | error e => simp only [h3] at h; cases h
        | ok size =>
          simp only [h3] at h
          cases h4 : resize E dim size with
          | error e => simp only [h4] at h; cases h
          | ok D =>
            simp only [h4] at h
            obtain ⟨d1, d2, d3⟩ := resize_mem e1.1 h4
            have hDw := resize_WF h4 e1
            cases h5 : tmp.foldlM (copySlice dim) ((⟨⟨D, fun _ => junk⟩, front.unit, front.kind⟩ : CVar V), (0 : Int)) with
            | error e => simp only [h5] at h; cases h
            | ok res =>
              simp only [h5] at h
              have hr' := (Except.ok.inj h).symm
              subst hr'
              obtain ⟨r1, -⟩ := copy_loop hDw (mem_labels d1) tmp [] _ res hto (by simp) rfl
                ⟨hDw, by rw [d2]; exact e2, fun _ _ _ => rfl⟩ rfl (by simp) h5
              rw [r1] at hr
              obtain ⟨pre, n, post, hD, hpre⟩ := split_label (mem_labels d1)
              have hoff : ∃ k, Dims.offset D dim = .ok k ∧ 0 < k := by
                have hpos : 0 < Dims.volume post := by
                  refine lt_of_le_of_ne (volume_nonneg fun p hp => hDw.2 p (by rw [hD]; simp [hp])) fun e => ?_
                  rw [hD, volume_append, volume_cons, ← e] at hr
                  simp at hr
                obtain ⟨k, hk⟩ := offset_exists (mem_labels d1)
                refine ⟨k, hk, ?_⟩
                have : Dims.offset (pre ++ (dim, n) :: post) dim = .ok (Dims.volume post) := by
                  clear hD
                  induction pre with
                  | nil => simp [Dims.offset, foldl_mul]
                  | cons p pre ih =>
                    simp only [labels, List.map_cons, List.mem_cons, not_or] at hpre
                    simp only [List.cons_append, Dims.offset, if_neg (Ne.symm hpre.1)]
                    exact ih hpre.2
                rw [hD, this] at hk
                cases hk
                exact hpos
              obtain ⟨k, hk, hk0⟩ := hoff
              obtain ⟨-, u⟩ := copy_loop_unit hDw hk hk0 tmp _ res hto rfl (Int.le_refl 0) h5
              intro x hx hx0
              obtain ⟨i, hi, hix⟩ := List.getElem_of_mem hx
              obtain ⟨b, hb1, hb2⟩ := t2 i x (by rw [List.getElem?_eq_getElem hi, hix])
              obtain ⟨-, f2, -, -, f5, -⟩ := expand_ok e1 e2 e3 (hv x hx) hb2
              rw [← f2]
              exact u b (List.mem_of_getElem? hb1) (by rw [f5]; exact hx0)

/-- C43: slicing the concatenation at the cumulative offsets gives back the arrays. -/
theorem C43_slice {junk : V} {vars : List (CVar V)} {dim : Dim} {r : CVar V} (hv : ∀ x ∈ vars, x.arr.Ok) (h : concat junk vars dim = .ok r)
    (i : Nat) (x : CVar V) (hi : vars[i]? = some x) :
    ∃ y, r.slice ⟨dim, offsetAt (vars.map CVar.dims) dim i, offsetAt (vars.map CVar.dims) dim i + extentOf x.dims dim, 1⟩ = .ok y ∧
      (dim, extentOf x.dims dim) ∈ y.dims ∧ (∀ p ∈ x.dims, p ∈ y.dims) ∧
      ∀ c, InDims y.dims c → y.arr.val c = x.arr.val c := by
  obtain ⟨h1, h2, h3, _, _, h6⟩ := concat_spec hv h
  obtain ⟨off, hoff⟩ : ∃ off, off = offsetAt (vars.map CVar.dims) dim i := ⟨_, rfl⟩
  have hx := hv x (List.mem_of_getElem? hi)
  have he0 : ∀ y ∈ vars, 0 ≤ extentOf y.dims dim := fun y hy => extentOf_nonneg (hv y hy).wf dim
  have hoff0 : 0 ≤ off := by
    rw [hoff]
    refine sum_nonneg_list ?_
    intro z hz
    obtain ⟨s, hs, rfl⟩ := List.mem_map.1 hz
    obtain ⟨y, hy, rfl⟩ := List.mem_map.1 (List.mem_of_mem_take hs)
    exact he0 y hy
  have hle : off + extentOf x.dims dim ≤ (vars.map (fun x => extentOf x.dims dim)).sum := by
    rw [hoff]
    unfold offsetAt
    have hsplit : vars = vars.take i ++ (x :: vars.drop (i + 1)) := by
      have hlt : i < vars.length := by
        by_contra hc
        rw [List.getElem?_eq_none (by omega)] at hi; cases hi
      rw [List.getElem?_eq_getElem hlt, Option.some.injEq] at hi
      rw [← hi, List.getElem_cons_drop, List.take_append_drop]
    have hrest : 0 ≤ ((vars.drop (i + 1)).map (fun x => extentOf x.dims dim)).sum := by
      refine sum_nonneg_list ?_
      intro z hz
      obtain ⟨y, hy, rfl⟩ := List.mem_map.1 hz
      exact he0 y (List.mem_of_mem_drop hy)
    have hsum := congrArg (fun l => (l.map (fun x : CVar V => extentOf x.dims dim)).sum) hsplit
    simp only [List.map_append, List.sum_append, List.map_cons, List.sum_cons] at hsum
    rw [← List.map_take, List.map_map]
    simp only [Function.comp_def]
    omega
  obtain ⟨S, s1, s2, s3⟩ := slice_range_ok h1.wf h2 hoff0 (he0 x (List.mem_of_getElem? hi)) hle
  obtain ⟨m1, m2, m3⟩ := resize_mem h1.wf.1 s3
  have hw := resize_WF s3 h1.wf
  have hpart := h6 i x hi
  rw [← hoff] at hpart ⊢
  refine ⟨⟨⟨S, fun c => r.arr.val (upd c dim (off + c dim * 1))⟩, r.unit, r.kind⟩, ?_, m1, ?_, ?_⟩
  · unfold CVar.slice
    rw [s2]
    dsimp only
    rw [if_neg (by have := he0 x (List.mem_of_getElem? hi); omega)]
  · intro p hp
    by_cases hd : p.1 = dim
    · obtain ⟨d, n⟩ := p
      simp only at hd
      subst hd
      rw [show n = extentOf x.dims d from (extentOf_mem hx.wf.1 hp).symm]
      exact m1
    · exact (m3 p hd).2 (h3 x (List.mem_of_getElem? hi) p hp hd)
  · intro c hc
    show r.arr.val (upd c dim (off + c dim * 1)) = _
    rw [Int.mul_one]
    have hcd := hc dim _ m1
    exact hpart c hcd.1 hcd.2

/-- C43 for bin edges: if every input has at least one bin, the edges can be joined exactly if adjacent edges match, given the same other
dims, unit, dtype. Full claim: also for inputs without bins; see `C43_wrong_for_empty_edges`. -/
theorem C43_join_edges_partial {junk : V} {eq : V → V → Bool} {dim : Dim} {O : Dims} {u k : Nat} {vars : List (CVar V)} (hne : vars ≠ [])
    (hdim : dim ≠ Dim.invalid)
    (hall : ∀ x ∈ vars, x.arr.Ok ∧ dim ∈ labels x.dims ∧ otherDims dim x.dims = O ∧ x.unit = u ∧ x.kind = k)
    (hbins : ∀ x ∈ vars, 2 ≤ extentOf x.dims dim) : (∃ r, joinEdges junk eq vars dim = .ok r) ↔ AdjacentMatch eq vars dim :=
  ⟨fun ⟨_, hr⟩ => joinEdges_adjacent (fun x hx => (hall x hx).1) hr, fun hadj => joinEdges_exists hne hdim hall hbins hadj⟩

/-- C43 for bin edges: joining never succeeds if adjacent edges do not match, and the result consists of the edges of all inputs, each
starting at the number of preceding bins, so that the shared edges occur once. -/
theorem C43_join_edges {junk : V} {eq : V → V → Bool} (heq : ∀ a b, eq a b = true → a = b) {vars : List (CVar V)} {dim : Dim} {r : CVar V}
    (hv : ∀ x ∈ vars, x.arr.Ok) (h : joinEdges junk eq vars dim = .ok r) :
    AdjacentMatch eq vars dim ∧ r.arr.Ok ∧ (dim, (vars.map (fun x => extentOf x.dims dim - 1)).sum + 1) ∈ r.dims ∧
      ∀ (i : Nat) x, vars[i]? = some x → IsPart r.arr dim (joinOffset (vars.map CVar.dims) dim i) (extentOf x.dims dim) x.arr := by
  obtain ⟨h1, h2, _, _, _, h6⟩ := joinEdges_spec heq hv h
  exact ⟨joinEdges_adjacent hv h, h1, h2, h6⟩

/-- C43 for data arrays: data, coords and masks of the concatenation consist of those of the inputs, at the cumulative offsets of the data,
provided coords and masks that depend on the dimension in the first input depend on it in all inputs. The names are those of the
first input. Full claim: without the condition; see `C43_wrong_for_scalar_coord`. -/
theorem C43_data_array_partial [DecidableEq V] {junk : V} {isnan : V → Bool} {das : List (CArray V)} {dim : Dim} {r : CArray V}
    (hda : ∀ a ∈ das, a.Ok) (hdim : dim ≠ Dim.invalid) (hc : ∀ key, SameDependence (das.map CArray.coordMap) dim key)
    (hm : ∀ key, SameDependence (das.map CArray.maskMap) dim key) (h : concatArrays junk isnan das dim = .ok r) :
    r.data.arr.Ok ∧ (dim, (das.map (fun a => extentOf a.data.dims dim)).sum) ∈ r.data.dims ∧
      (∀ (i : Nat) a, das[i]? = some a →
        IsPart r.data.arr dim (offsetAt (das.map (fun a => a.data.dims)) dim i) (extentOf a.data.dims dim) a.data.arr) ∧
      IsItemConcat r.coords (das.map CArray.coordMap) dim ∧ IsItemConcat r.masks (das.map CArray.maskMap) dim ∧
      ∀ a, das.head? = some a → r.coords.map Prod.fst = a.coords.map Prod.fst ∧ r.masks.map Prod.fst = a.masks.map Prod.fst := by
  unfold concatArrays at h
  cases h1 : concat junk (das.map CArray.data) dim with
  | error e => rw [h1] at h; cases h
  | ok data =>
    simp only [h1] at h
    cases h2 : concatMaps junk isnan (das.map CArray.maskMap) dim with
    | error e => simp only [h2] at h; cases h
    | ok masks =>
      simp only [h2] at h
      cases h3 : masks.forM (fitCheck data.dims) with
      | error e => simp only [h3] at h; cases h
      | ok _ =>
        simp only [h3] at h
        cases h4 : concatMaps junk isnan (das.map CArray.coordMap) dim with
        | error e => simp only [h4] at h; cases h
        | ok coords =>
          simp only [h4] at h
          cases h5 : coords.forM (fitCheck data.dims) with
          | error e => simp only [h5] at h; cases h
          | ok _ =>
            simp only [h5] at h
            have hr := (Except.ok.inj h).symm
            subst hr
            obtain ⟨a1, a2, _, a4⟩ := C43_concat (by
              intro x hx
              obtain ⟨a, ha, rfl⟩ := List.mem_map.1 hx
              exact (hda a ha).data) h1
            obtain ⟨c1, c2⟩ := concatMaps_spec (by
              intro m hm
              obtain ⟨a, ha, rfl⟩ := List.mem_map.1 hm
              exact (hda a ha).coords) hdim hc h4
            obtain ⟨m1, m2⟩ := concatMaps_spec (by
              intro m hm
              obtain ⟨a, ha, rfl⟩ := List.mem_map.1 hm
              exact (hda a ha).masks) hdim hm h2
            refine ⟨a1, ?_, ?_, c1, m1, ?_⟩
            · rw [List.map_map] at a2; exact a2
            · intro i a hi
              have := a4 i a.data (by rw [List.getElem?_map, hi]; rfl)
              rw [List.map_map] at this
              exact this
            · intro a ha
              refine ⟨c2 a.coordMap ?_, m2 a.maskMap ?_⟩ <;> rw [List.head?_map, ha] <;> rfl

/-! ### Examples and disagreements -/

/-- A one-dimensional variable. -/
def cVar (dim : Dim) (l : List Nat) : CVar Nat := ⟨⟨[(dim, l.length)], fun c => l.getD (c dim).toNat 0⟩, 0, 0⟩

/-- A scalar. -/
def cScalar (x : Nat) : CVar Nat := ⟨⟨[], fun _ => x⟩, 0, 0⟩

/-- The elements of a one-dimensional variable. -/
def cElems (dim : Dim) (x : CVar Nat) : List Nat :=
  (List.range (extentOf x.dims dim).toNat).map (fun k => x.arr.val (upd (fun _ => 0) dim k))

theorem cVar_ok {dim : Dim} (hd : dim ≠ Dim.invalid) (l : List Nat) : (cVar dim l).arr.Ok := by
  refine ⟨⟨?_, ?_⟩, ?_, ?_⟩
  · simp [cVar, labels]
  · simp [cVar]
  · simpa [cVar, labels] using fun h => hd h.symm
  · intro c c' h
    have := h dim (by simp [cVar, labels])
    simp [cVar, this]

theorem cScalar_ok (x : Nat) : (cScalar x).arr.Ok := ⟨⟨by simp [cScalar, labels], by simp [cScalar]⟩, by simp [cScalar, labels], fun _ _ _ => rfl⟩

/-- Concatenation of an array of length 2, a scalar and an array of length 3. -/
example : ((concat 99 [cVar 5 [1, 2], cScalar 7, cVar 5 [4, 5, 6]] 5).toOption.map (cElems 5)) = some [1, 2, 7, 4, 5, 6] := by
  decide

example : ∃ r, concat 99 [cVar 5 [1, 2], cScalar 7, cVar 5 [4, 5, 6]] 5 = .ok r := by
  refine C43_concat_succeeds (O := []) (u := 0) (k := 0) ?_ (by simp) (by decide) ?_ ?_
  · intro x hx
    simp only [List.mem_cons, List.not_mem_nil, or_false] at hx
    rcases hx with rfl | rfl | rfl
    · exact cVar_ok (by decide) _
    · exact cScalar_ok _
    · exact cVar_ok (by decide) _
  · intro x hx p hp
    simp only [List.mem_cons, List.not_mem_nil, or_false] at hx
    rcases hx with rfl | rfl | rfl <;> simp [cVar, cScalar, CVar.dims] <;> rintro rfl <;> exact hp rfl
  · intro x hx
    simp only [List.mem_cons, List.not_mem_nil, or_false] at hx
    rcases hx with rfl | rfl | rfl <;> exact ⟨rfl, rfl⟩

private theorem cParts_ok : ∀ x ∈ [cVar 5 [1, 2], cScalar 7, cVar 5 [4, 5, 6]], x.arr.Ok := by
  simp only [List.mem_cons, List.not_mem_nil, or_false]
  rintro _ (rfl | rfl | rfl)
  · exact cVar_ok (by decide) _
  · exact cScalar_ok _
  · exact cVar_ok (by decide) _

-- such an `r` exists by the previous example
example (r : CVar Nat) (h : concat 99 [cVar 5 [1, 2], cScalar 7, cVar 5 [4, 5, 6]] 5 = .ok r) := C43_concat cParts_ok h
example (r : CVar Nat) (h : concat 99 [cVar 5 [1, 2], cScalar 7, cVar 5 [4, 5, 6]] 5 = .ok r) :=
  C43_slice cParts_ok h 2 (cVar 5 [4, 5, 6]) rfl

private theorem cEdges_ok : ∀ x ∈ [cVar 5 [0, 1, 2], cVar 5 [2, 3]],
    x.arr.Ok ∧ (5 : Dim) ∈ labels x.dims ∧ otherDims 5 x.dims = [] ∧ x.unit = 0 ∧ x.kind = 0 := by
  simp only [List.mem_cons, List.not_mem_nil, or_false]
  rintro _ (rfl | rfl)
  · exact ⟨cVar_ok (by decide) _, by decide, by decide, rfl, rfl⟩
  · exact ⟨cVar_ok (by decide) _, by decide, by decide, rfl, rfl⟩

example := C43_join_edges_partial (junk := 99) (eq := elemEq (fun _ => false)) (vars := [cVar 5 [0, 1, 2], cVar 5 [2, 3]]) (by simp)
  (by decide) cEdges_ok (by decide)
-- such an `r` exists by the next example
example (r : CVar Nat) (h : joinEdges 99 (elemEq (fun _ => false)) [cVar 5 [0, 1, 2], cVar 5 [2, 3]] 5 = .ok r) :=
  C43_join_edges (fun a b h => by simpa [elemEq] using h) (fun x hx => (cEdges_ok x hx).1) h

/-- Joining the edges 0, 1, 2 and 2, 3. -/
example : ((joinEdges 99 (elemEq (fun _ => false)) [cVar 5 [0, 1, 2], cVar 5 [2, 3]] 5).toOption.map (cElems 5)) = some [0, 1, 2, 3] := by
  decide

example : joinEdges 99 (elemEq (fun _ => false)) [cVar 5 [0, 1, 2], cVar 5 [7, 3]] 5 = .error .variable := rfl

/-- C43 fails for edges without bins: joining the edges 0, 1 and 1 and 1, 2 throws although adjacent edges match. The slice `[1, 1)` of the
middle array that is compared with the third array is empty (`lib/dataset/shape.cpp` 40). Such data arrays are obtained e.g. as empty
slices that keep their edge. -/
theorem C43_wrong_for_empty_edges :
    AdjacentMatch (elemEq (fun _ => false)) [cVar 5 [0, 1], cVar 5 [1], cVar 5 [1, 2]] 5 ∧
      joinEdges 99 (elemEq (fun _ => false)) [cVar 5 [0, 1], cVar 5 [1], cVar 5 [1, 2]] 5 = .error .slice := by
  refine ⟨?_, rfl⟩
  intro i x y hx hy c hc hcd
  match i, hx, hy with
  | 0, hx, hy =>
    simp only [List.getElem?_cons_zero, Nat.zero_add, List.getElem?_cons_succ, Option.some.injEq] at hx hy
    subst hx; subst hy
    have hcd' : c 5 = 1 := hcd
    simp [cVar, hcd', upd, elemEq]
  | 1, hx, hy =>
    simp only [List.getElem?_cons_zero, List.getElem?_cons_succ, Option.some.injEq] at hx hy
    subst hx; subst hy
    have hcd' : c 5 = 0 := hcd
    simp [cVar, hcd', upd, elemEq]
  | i + 2, hx, hy =>
    simp at hy

/-- C43 fails for coords that depend on the dimension only in the first input: the inputs have data of lengths 1, 2 and 0 and the coords
`[10]`, 20 and 30. The result has the data 1, 2, 3 and the coord 10, 20, 30: the third element belongs to the second input, whose coord
is 20. -/
theorem C43_wrong_for_scalar_coord :
    (concatArrays 99 (fun _ => false)
      [⟨cVar 5 [1], [(5, cVar 5 [10])], []⟩, ⟨cVar 5 [2, 3], [(5, cScalar 20)], []⟩, ⟨cVar 5 [], [(5, cScalar 30)], []⟩] 5).toOption.map
      (fun r => (cElems 5 r.data, r.coords.map (fun p => (p.1, cElems 5 p.2)))) = some ([1, 2, 3], [(5, [10, 20, 30])]) := by
  decide

/-- Units: if the first input is empty, its unit is ignored; if another one is empty, its unit matters. -/
theorem C43_unit_of_empty_input :
    (concat 99 [⟨(cVar 5 []).arr, 1, 0⟩, ⟨(cVar 5 [3]).arr, 2, 0⟩] 5).toOption.map (fun r => (cElems 5 r, r.unit)) = some ([3], 2) ∧
      concat 99 [⟨(cVar 5 [3]).arr, 2, 0⟩, ⟨(cVar 5 []).arr, 1, 0⟩] 5 = .error .unit := by
  exact ⟨by decide, rfl⟩

/-- Data arrays with a bin-edge coord, a coord that is the same for both inputs, one that differs and a mask. -/
example :
    (concatArrays 99 (fun _ => false)
      [⟨cVar 5 [1, 2], [(5, cVar 5 [0, 1, 2]), (6, cScalar 4), (7, cScalar 5)], [(8, cVar 5 [1, 0])]⟩,
        ⟨cVar 5 [3], [(5, cVar 5 [2, 3]), (6, cScalar 4), (7, cScalar 6)], [(8, cVar 5 [1])]⟩] 5).toOption.map
      (fun r => (cElems 5 r.data, r.coords.map (fun p => (p.1, cElems 5 p.2)), r.masks.map (fun p => (p.1, cElems 5 p.2)))) =
      some ([1, 2, 3], [(5, [0, 1, 2, 3]), (6, [4]), (7, [5, 5, 6])], [(8, [1, 0, 1])]) := by
  decide

/-- First input of the following example: data, bin edges and a mask. -/
def cLeft : CArray Nat := ⟨cVar 5 [1, 2], [(5, cVar 5 [0, 1, 2])], [(8, cVar 5 [1, 0])]⟩

/-- Second input of the following example. -/
def cRight : CArray Nat := ⟨cVar 5 [3], [(5, cVar 5 [2, 3])], [(8, cVar 5 [1])]⟩

/-- The hypotheses of `C43_data_array_partial` are met by the concatenation of two data arrays with bin edges and a mask. -/
private theorem cLeftRight : (∀ a ∈ [cLeft, cRight], a.Ok) ∧ (∀ key, SameDependence ([cLeft, cRight].map CArray.coordMap) 5 key) ∧
    (∀ key, SameDependence ([cLeft, cRight].map CArray.maskMap) 5 key) ∧
    ∃ r, concatArrays 99 (fun _ => false) [cLeft, cRight] 5 = .ok r := by
  have hw : ∀ l : List Nat, Sizes.WF (cVar 5 l).dims := fun l => (cVar_ok (by decide) l).wf
  have hs : ∀ maps : List (CMap Nat), (∀ m ∈ maps, ∀ p ∈ m.items, (5 : Dim) ∈ labels p.2.dims) → ∀ key, SameDependence maps 5 key :=
    fun maps hmaps key a x _ _ _ m hm v hv => .inl (hmaps m hm _ (lookup_mem hv))
  refine ⟨?_, hs _ ?_, hs _ ?_, ?_⟩
  · intro a ha
    simp only [List.mem_cons, List.not_mem_nil, or_false] at ha
    rcases ha with rfl | rfl
    all_goals
      refine ⟨cVar_ok (by decide) _, ⟨hw _, ?_⟩, ⟨hw _, ?_⟩, by decide, by decide⟩
      all_goals
        intro p hp
        rw [show p = _ from List.mem_singleton.1 hp]
        refine ⟨cVar_ok (by decide) _, ?_⟩
        refine ⟨5, ?_⟩
        simp [cLeft, cRight, cVar, CArray.coordMap, CArray.maskMap, CVar.dims, labels]
  · intro m hm p hp
    simp only [List.map_cons, List.map_nil, List.mem_cons, List.not_mem_nil, or_false] at hm
    rcases hm with rfl | rfl <;> (rw [show p = _ from List.mem_singleton.1 hp]; decide)
  · intro m hm p hp
    simp only [List.map_cons, List.map_nil, List.mem_cons, List.not_mem_nil, or_false] at hm
    rcases hm with rfl | rfl <;> (rw [show p = _ from List.mem_singleton.1 hp]; decide)
  · exact ⟨_, rfl⟩

example (r : CArray Nat) (h : concatArrays 99 (fun _ => false) [cLeft, cRight] 5 = .ok r) :=
  C43_data_array_partial cLeftRight.1 (by decide) cLeftRight.2.1 cLeftRight.2.2.1 h

/-- Different units are rejected, the same units are kept. -/
example (r : CVar Nat) (h : concat 99 [cVar 5 [1, 2], cScalar 7, cVar 5 [4, 5, 6]] 5 = .ok r) (hr : 0 < Dims.volume r.dims) :=
  C43_unit cParts_ok h hr
example : concat 99 [cVar 5 [1, 2], ⟨(cVar 5 [3]).arr, 2, 0⟩] 5 = .error .unit ∧
    concat 99 [cVar 5 [1, 2], ⟨(cVar 5 [3]).arr, 0, 1⟩] 5 = .error .dtype ∧
    (concat 99 [⟨(cVar 5 [1, 2]).arr, 2, 1⟩, ⟨(cVar 5 [3]).arr, 2, 1⟩] 5).toOption.map (fun r => (r.unit, r.kind, Dims.volume r.dims)) =
      some (2, 1, 3) := ⟨rfl, rfl, by decide⟩

/-- Two-dimensional data with two-dimensional bin edges. -/
def cGrid (rows : List (List Nat)) (n : Nat) : CVar Nat :=
  ⟨⟨[(6, rows.length), (5, n)], fun c => (rows.getD (c 6).toNat []).getD (c 5).toNat 0⟩, 0, 0⟩

/-- The elements of a grid by row. -/
def cRows (x : CVar Nat) : List (List Nat) :=
  (List.range (extentOf x.dims 6).toNat).map fun j => (List.range (extentOf x.dims 5).toNat).map fun k =>
    x.arr.val (upd (upd (fun _ => 0) 5 k) 6 j)

/-- The edges, which differ by row, are joined; they cannot be joined if those of one row differ. -/
example :
    (concatArrays 99 (fun _ => false)
      [⟨cGrid [[1, 2], [3, 4]] 2, [(5, cGrid [[0, 1, 2], [5, 6, 7]] 3)], [(8, cGrid [[0, 1], [1, 0]] 2)]⟩,
        ⟨cGrid [[10], [20]] 1, [(5, cGrid [[2, 9], [7, 8]] 2)], [(8, cGrid [[1], [1]] 1)]⟩] 5).toOption.map
      (fun r => (cRows r.data, r.coords.map (fun p => (p.1, cRows p.2)))) =
      some ([[1, 2, 10], [3, 4, 20]], [(5, [[0, 1, 2, 9], [5, 6, 7, 8]])]) ∧
    (concatArrays 99 (fun _ => false)
      [⟨cGrid [[1, 2], [3, 4]] 2, [(5, cGrid [[0, 1, 2], [5, 6, 7]] 3)], []⟩,
        ⟨cGrid [[10], [20]] 1, [(5, cGrid [[2, 9], [6, 8]] 2)], []⟩] 5).isOk = false := by decide

end Scipp.Props
