import Verif.Model.PyIndex
import Verif.Spec.PyIndex
import Verif.Props.View
import Verif.Props.Extract
import Verif.Lemmas.SizedDict
import Mathlib.Data.List.Pairwise
import Mathlib.Data.List.Sort
/-!
C58: indexing from Python selects the positions that Python's own sequences select.
-/
namespace Scipp.Props
open Scipp Scipp.Sizes Scipp.Py

/-- Two strictly increasing lists with the same elements are equal. -/
private theorem eq_of_increasing {a b : List Int} (ha : a.Pairwise (· < ·)) (hb : b.Pairwise (· < ·)) (h : ∀ x, x ∈ a ↔ x ∈ b) : a = b :=
  List.Perm.eq_of_pairwise (le := (· < ·)) (fun x y _ _ h1 h2 => absurd h1 (by omega)) ha hb
    ((List.perm_ext_iff_of_nodup (ha.imp (fun h => by omega)) (hb.imp (fun h => by omega))).2 h)

private theorem intRange_increasing (b e : Int) : (intRange b e).Pairwise (· < ·) := by
  unfold intRange
  rw [List.pairwise_map]
  exact List.pairwise_lt_range.imp (fun h => by omega)

private theorem mem_intRange' {b e j : Int} : j ∈ intRange b e ↔ b ≤ j ∧ j < e := by
  unfold intRange
  simp only [List.mem_map, List.mem_range]
  constructor
  · rintro ⟨k, hk, rfl⟩; omega
  · rintro ⟨h1, h2⟩; exact ⟨(j - b).toNat, by omega, by omega⟩

/-- The positions as an arithmetic progression. -/
private theorem positions_eq {n : Int} {start stop : Option Int} {k lo hi m : Int} (hlo : (start.map (bound n)).getD 0 = lo)
    (hhi : (stop.map (bound n)).getD n = hi) (h0 : 0 ≤ lo) (hn : hi ≤ n) (hk : 0 < k)
    (hm : ∀ i, 0 ≤ i → (i < m ↔ lo + i * k < hi)) :
    positions n start stop k = (List.range m.toNat).map (fun i : Nat => lo + i * k) := by
  unfold positions
  rw [hlo, hhi]
  refine eq_of_increasing ((intRange_increasing 0 n).filter _) ?_ (fun x => ?_)
  · rw [List.pairwise_map]
    refine List.pairwise_lt_range.imp (fun {a b} h => ?_)
    have : (a : Int) * k < b * k := Int.mul_lt_mul_of_pos_right (by omega) hk
    omega
  · simp only [List.mem_filter, decide_eq_true_eq, mem_intRange', List.mem_map, List.mem_range]
    constructor
    · rintro ⟨-, h1, h2, c, hc⟩
      have hc0 : 0 ≤ c := by
        by_contra hneg
        have : k * c < 0 := Int.mul_neg_of_pos_of_neg hk (by omega)
        omega
      have hx : x = lo + c * k := by rw [Int.mul_comm]; omega
      have := (hm c hc0).2 (by omega)
      exact ⟨c.toNat, by omega, by rw [Int.toNat_of_nonneg hc0]; omega⟩
    · rintro ⟨i, hi', rfl⟩
      have h1 := (hm i (by omega)).1 (by omega)
      have h2 : 0 ≤ (i : Int) * k := Int.mul_nonneg (by omega) (by omega)
      exact ⟨⟨by omega, by omega⟩, by omega, h1, ⟨i, by rw [Int.mul_comm]; omega⟩⟩

private theorem saturate_bound {n k x : Int} (hn : 0 ≤ n) (hmax : n ≤ ssizeMax) (hk : 0 < k) : adjust n k (saturate x) = bound n x := by
  unfold adjust saturate bound ssizeMax at *
  split <;> split <;> (repeat' split) <;> omega

private theorem bound_range {n x : Int} (hn : 0 ≤ n) : 0 ≤ bound n x ∧ bound n x ≤ n := by
  unfold bound
  split <;> omega

private theorem sliceLength_zero {b e k : Int} (hk : 0 < k) : sliceLength b e k = 0 ↔ e ≤ b := by
  unfold sliceLength
  rw [if_neg (by omega)]
  split
  · rename_i h
    have := Int.tdiv_nonneg (a := e - b - 1) (b := k) (by omega) (by omega)
    omega
  · omega

/-- What `from_py_slice` makes of a slice with a positive step. -/
private theorem fromPySlice_pos {n : Int} (dim : Dim) (start stop step : Option Int) (hn : 0 ≤ n) (hmax : n ≤ ssizeMax)
    (hk : 0 < step.getD 1) :
    ∃ b e k, fromPySlice n dim start stop step = .ok ⟨dim, b, e, k⟩ ∧ Slice.range dim b e k = .ok ⟨dim, b, e, k⟩ ∧ 0 < k ∧ 0 ≤ b ∧ b ≤ e ∧
      e ≤ n ∧ b = (start.map (bound n)).getD 0 ∧ (e = max b ((stop.map (bound n)).getD n)) ∧ k = min (step.getD 1) ssizeMax := by
  have hst : unpackStep step = min (step.getD 1) ssizeMax := by
    cases step with
    | none => unfold ssizeMax; rfl
    | some k =>
      simp only [Option.getD_some] at hk ⊢
      unfold unpackStep saturate ssizeMax
      simp only
      split <;> omega
  have hk' : 0 < min (step.getD 1) ssizeMax := by unfold ssizeMax; omega
  have hb : adjust n (min (step.getD 1) ssizeMax) (unpackStart (min (step.getD 1) ssizeMax) start) = (start.map (bound n)).getD 0 := by
    cases start with
    | none =>
      simp only [Option.map_none, Option.getD_none, unpackStart]
      rw [if_neg (by omega)]
      unfold adjust
      rw [if_neg (by omega)]
      split
      · rw [if_neg (by omega)]; omega
      · rfl
    | some x => exact saturate_bound hn hmax hk'
  have he : adjust n (min (step.getD 1) ssizeMax) (unpackStop (min (step.getD 1) ssizeMax) stop) = (stop.map (bound n)).getD n := by
    cases stop with
    | none =>
      simp only [Option.map_none, Option.getD_none, unpackStop]
      rw [if_neg (by omega)]
      unfold adjust
      rw [if_neg (by unfold ssizeMax; omega), if_pos hmax, if_neg (by omega)]
    | some x => exact saturate_bound hn hmax hk'
  have hbr : 0 ≤ (start.map (bound n)).getD 0 ∧ (start.map (bound n)).getD 0 ≤ n := by
    cases start with
    | none => exact ⟨by simp, by simpa using hn⟩
    | some x => exact bound_range hn
  have her : 0 ≤ (stop.map (bound n)).getD n ∧ (stop.map (bound n)).getD n ≤ n := by
    cases stop with
    | none => exact ⟨by simpa using hn, by simp⟩
    | some x => exact bound_range hn
  generalize hB : (start.map (bound n)).getD 0 = B at *
  generalize hE : (stop.map (bound n)).getD n = E at *
  generalize hK : min (step.getD 1) ssizeMax = K at *
  have hend : (if sliceLength B E K = 0 then B else E) = max B E := by
    by_cases h : E ≤ B
    · rw [if_pos ((sliceLength_zero hk').2 h)]; omega
    · rw [if_neg (fun hc => h ((sliceLength_zero hk').1 hc))]; omega
  have hr : Slice.range dim B (max B E) K = .ok ⟨dim, B, max B E, K⟩ := by
    unfold Slice.range
    rw [if_neg (by omega), if_neg (by omega), if_neg (by omega), if_neg (by omega)]
  refine ⟨B, max B E, K, ?_, hr, hk', hbr.1, by omega, by omega, rfl, rfl, rfl⟩
  unfold fromPySlice unpack
  rw [hst, if_neg (by omega)]
  simp only [bind, Except.bind, hb, he, hend, hr]

/-- C58: `var[dim, start:stop:step]` with a positive (or no) step selects the positions a Python list would select, in the same order, for
any integers or `None`: element `k` along `dim` of the result is element `positions[k]` of the variable. All other dims are kept. -/
theorem C58_slice (v : View) (hw : v.WF) (dim : Dim) (n : Int) (hd : (dim, n) ∈ v.dims) (hmax : n ≤ ssizeMax)
    (start stop step : Option Int) (hk : 0 < step.getD 1) :
    ∃ w, getitemSlice v dim start stop step = .ok w ∧ labels w.dims = labels v.dims ∧
      (∀ d m, d ≠ dim → ((d, m) ∈ w.dims ↔ (d, m) ∈ v.dims)) ∧
      (dim, ((positions n start stop (step.getD 1)).length : Int)) ∈ w.dims ∧
      ∀ c, InDims w.dims c → ∃ j, (positions n start stop (step.getD 1))[(c dim).toNat]? = some j ∧ InDims v.dims (upd c dim j) ∧
        w.addr c = v.addr (upd c dim j) := by
  have hn : 0 ≤ n := hw.1.2 _ hd
  obtain ⟨b, e, k, h1, h2, h3, h4, h5, h6, h7, h8, h9⟩ := fromPySlice_pos dim start stop step hn hmax hk
  have hat : at? v.dims dim = .ok n := at?_of_mem hw.1.1 hd
  have hacc := ((C04_slice_accepts_iff v ⟨dim, b, e, k⟩ hw (.inl h2)).1).2
    ⟨n, hd, by simp only; rw [if_neg (by omega)]; exact h6⟩
  obtain ⟨w, hw'⟩ := hacc
  obtain ⟨g1, g2, ⟨m, g3, g4⟩, g5, g6⟩ := C04_range_slice v w dim b e k hw (.inl h2) (by omega) hw'
  have hpos : positions n start stop k = (List.range m.toNat).map (fun i : Nat => b + i * k) := by
    refine positions_eq h7.symm rfl h4 ?_ h3 (fun i hi => ?_)
    · cases stop with
      | none => simp
      | some x => exact (bound_range hn).2
    · rw [g4 i hi, h8]
      have : 0 ≤ i * k := Int.mul_nonneg hi (by omega)
      omega
  have hsat : positions n start stop (step.getD 1) = positions n start stop k := by
    unfold positions
    refine List.filter_congr (fun j hj => ?_)
    rw [mem_intRange'] at hj
    rw [← h7]
    congr 1
    refine propext (and_congr_right (fun hbj => and_congr_right (fun _ => ?_)))
    by_cases hle : step.getD 1 ≤ ssizeMax
    · rw [h9, min_eq_left hle]
    · have hkm : k = ssizeMax := by rw [h9]; omega
      constructor
      · intro hdiv
        have := Int.eq_zero_of_dvd_of_natAbs_lt_natAbs hdiv (by omega)
        rw [this]; exact Int.dvd_zero _
      · intro hdiv
        have := Int.eq_zero_of_dvd_of_natAbs_lt_natAbs hdiv (by omega)
        rw [this]; exact Int.dvd_zero _
  have hm0 : 0 ≤ m := by
    by_contra hneg
    have hwf : (dim, m) ∈ w.dims := g3
    have := View.slice_wf hw (.inl h2) hw'
    have := this.1.2 _ hwf
    omega
  rw [hsat, hpos]
  refine ⟨w, ?_, g1, g2, ?_, fun c hc => ⟨b + c dim * k, ?_, g6 c hc, g5 c⟩⟩
  · unfold getitemSlice
    rw [hat]; simp only [bind, Except.bind, h1, hw']
  · rw [List.length_map, List.length_range, Int.toNat_of_nonneg hm0]; exact g3
  · have := hc dim m g3
    rw [List.getElem?_map, List.getElem?_range (by omega)]
    simp only [Option.map_some]
    rw [Int.toNat_of_nonneg this.1]

/-- C58: negative and zero steps are refused, never misread. -/
theorem C58_step (v : View) (dim : Dim) (start stop : Option Int) (step : Int) (hk : step ≤ 0) :
    ∃ e, getitemSlice v dim start stop (some step) = .error e := by
  unfold getitemSlice
  cases h : at? v.dims dim with
  | error e => exact ⟨e, rfl⟩
  | ok n =>
    simp only [bind, Except.bind]
    cases h2 : fromPySlice n dim start stop (some step) with
    | error e => exact ⟨e, rfl⟩
    | ok s =>
      exfalso
      unfold fromPySlice at h2
      cases h3 : unpack start stop (some step) with
      | error e => simp [h3, bind, Except.bind] at h2
      | ok p =>
        obtain ⟨b, e, st⟩ := p
        have hst : st < 0 := by
          unfold unpack at h3
          split at h3
          · cases h3
          · rename_i hne
            injection h3 with h3
            have : max (saturate step) (-ssizeMax) = st := congrArg (fun q => q.2.2) h3
            rw [unpackStep] at hne
            rw [this] at hne
            unfold saturate ssizeMax at this
            split at this <;> (try split at this) <;> omega
        simp only [h3, bind, Except.bind] at h2
        generalize (if sliceLength (adjust n st b) (adjust n st e) st = 0 then adjust n st b else adjust n st e) = E at h2
        unfold Slice.range at h2
        rw [if_neg (show ¬ st = 0 by omega), if_pos hst] at h2
        split at h2
        · cases h2
        · split at h2 <;> cases h2

/-- C58: `var[dim, i]` selects the element a Python list would select, also for negative `i`, and raises an error exactly if a list would. -/
theorem C58_int (v : View) (hw : v.WF) (dim : Dim) (n : Int) (hd : (dim, n) ∈ v.dims) (i : Int) :
    (∀ j, position? n i = some j → ∃ w, getitemInt v dim i = .ok w ∧ labels w.dims = (labels v.dims).filter (· ≠ dim) ∧
      (∀ d m, (d, m) ∈ w.dims ↔ (d, m) ∈ v.dims ∧ d ≠ dim) ∧ 0 ≤ j ∧ j < n ∧
      ∀ c, w.addr c = v.addr (upd c dim j)) ∧
    (position? n i = none → getitemInt v dim i = .error .outOfRange) := by
  have hn : 0 ≤ n := hw.1.2 _ hd
  have hat : at? v.dims dim = .ok n := at?_of_mem hw.1.1 hd
  constructor
  · intro j hj
    have hj' : 0 ≤ j ∧ j < n ∧ j = (if i < 0 then n + i else i) ∧ ¬ (i < -n ∨ i ≥ n) := by
      unfold position? at hj
      split at hj
      · injection hj with hj; rw [if_neg (by omega)]; omega
      · split at hj
        · injection hj with hj; rw [if_pos (by omega)]; omega
        · cases hj
    have hpt : Slice.point dim j = .ok ⟨dim, j, -1, 1⟩ := by unfold Slice.point; rw [if_neg (by omega)]
    have hacc := ((C04_slice_accepts_iff v ⟨dim, j, -1, 1⟩ hw (.inr hpt)).1).2 ⟨n, hd, by simp only; rw [if_pos trivial]; exact hj'.2.1⟩
    obtain ⟨w, hw'⟩ := hacc
    obtain ⟨g1, g2, g3, -⟩ := C04_point_slice v w dim j 1 hw (.inr hpt) hw'
    refine ⟨w, ?_, g1, g2, hj'.1, hj'.2.1, g3⟩
    unfold getitemInt getSlice
    rw [hat]
    simp only [bind, Except.bind]
    rw [if_neg hj'.2.2.2, ← hj'.2.2.1, hpt]
    exact hw'
  · intro h
    unfold getitemInt getSlice
    rw [hat]
    simp only [bind, Except.bind]
    rw [if_pos]
    unfold position? at h
    split at h
    · cases h
    · split at h
      · cases h
      · omega

/-- C58: a dim the object does not have is an error, for a variable and for a dataset (where the extent is taken to be -1). -/
theorem C58_missing_dim (v : View) (s : Sizes) (dim : Dim) (hv : dim ∉ labels v.dims) (hs : dim ∉ labels s) (start stop step : Option Int)
    (i : Int) :
    getitemSlice v dim start stop step = .error .dimension ∧ getitemInt v dim i = .error .dimension ∧
    getSlice (dimExtentDataset s dim) dim i = .error .outOfRange ∧
    ∀ p, fromPySlice (dimExtentDataset s dim) dim start stop step = .ok p → ∃ e, s.slice p = .error e := by
  have h1 : at? v.dims dim = .error .dimension := at?_error hv
  have h2 : at? s dim = .error .dimension := at?_error hs
  refine ⟨by unfold getitemSlice; rw [h1]; rfl, by unfold getitemInt; rw [h1]; rfl, ?_, ?_⟩
  · unfold getSlice dimExtentDataset
    rw [h2]; simp only
    rw [if_pos (by omega)]
  · intro p hp
    have hdim : p.dim = dim ∧ 0 ≤ p.start := by
      unfold fromPySlice at hp
      cases h3 : unpack start stop step with
      | error e => simp [h3, bind, Except.bind] at hp
      | ok q =>
        obtain ⟨b, e, st⟩ := q
        simp only [h3, bind, Except.bind] at hp
        generalize (if sliceLength (adjust (dimExtentDataset s dim) st b) (adjust (dimExtentDataset s dim) st e) st = 0 then
          adjust (dimExtentDataset s dim) st b else adjust (dimExtentDataset s dim) st e) = E at hp
        unfold Slice.range at hp
        split at hp
        · cases hp
        split at hp
        · cases hp
        split at hp
        · cases hp
        split at hp
        · cases hp
        injection hp with hp
        subst hp
        exact ⟨rfl, by simp only; omega⟩
    unfold Sizes.slice Sizes.validSlice
    rw [hdim.1, h2]
    refine ⟨.slice, ?_⟩
    have : p ≠ Slice.none := by
      intro hc; rw [hc] at hdim
      have := hdim.2
      unfold Slice.none at this
      simp at this
    simp [this, bind, Except.bind]

/-- C58: without a dim label exactly the 1-D objects can be indexed. -/
theorem C58_implicit_dim (dims : Dims) (d : Dim) : implicitDim dims = .ok d ↔ ∃ n, dims = [(d, n)] := by
  unfold implicitDim
  split
  · rename_i p
    simp [Prod.ext_iff]
  · rename_i h
    constructor
    · intro hc; cases hc
    · rintro ⟨n, rfl⟩; exact absurd rfl (h _)

private theorem makeSlice_eq {n p j : Int} (h : position? n p = some j) : makeSlice p n = .ok (j, j + 1) ∧ 0 ≤ j ∧ j < n ∧ ¬ (p < -n ∨ p ≥ n) := by
  unfold position? at h
  unfold makeSlice
  split at h
  · injection h with h; subst h
    simp only
    rw [if_neg (show ¬ p < 0 by omega), if_neg (by omega)]
    exact ⟨rfl, by omega⟩
  · split at h
    · injection h with h; subst h
      simp only
      rw [if_pos (show p < 0 by omega), if_neg (by omega)]
      exact ⟨rfl, by omega⟩
    · cases h

/-- C58: `obj[dim, [i, j, ...]]` gives the rows of the object at the positions the integers refer to, in the given order and as often as
given; negative integers count from the end. Missing for the full claim: data arrays in which a coord, mask or attr that does not depend on
the dim holds NaN (see C42). -/
theorem C58_list_partial {V : Type} (eqv : V → V → Bool) (heq : ∀ a b, eqv a b = true → a = b) (init : Nat → V) (dim : Dim)
    (hdim : dim ≠ Dim.invalid) (indices : List Int) (t : Bins.Table V) (ht : t.IsDataArray) (hnan : t.NoNaN eqv)
    (js : List Int) (hj : indices.map (position? t.data.length) = js.map some) :
    ∃ out, sliceByList eqv init dim indices t = .ok out ∧ out.Ok ∧ out.rowList = js.map (fun j => t.rowAt j.toNat) := by
  have key : ∀ (is js : List Int), is.map (position? t.data.length) = js.map some →
      is.any (fun i => decide (i < -(t.data.length : Int) ∨ i ≥ (t.data.length : Int))) = false ∧
      is.mapM (fun p => makeSlice p t.data.length) = .ok (js.map (fun j => (j, j + 1))) ∧
      ∀ j ∈ js, 0 ≤ j ∧ j < t.data.length := by
    intro is
    induction is with
    | nil =>
      intro js h
      cases js with
      | nil => exact ⟨rfl, rfl, by simp⟩
      | cons _ _ => cases h
    | cons i is ih =>
      intro js h
      cases js with
      | nil => cases h
      | cons j js =>
        rw [List.map_cons, List.map_cons, List.cons.injEq] at h
        obtain ⟨g1, g2, g3, g4⟩ := makeSlice_eq h.1
        obtain ⟨k1, k2, k3⟩ := ih js h.2
        refine ⟨?_, ?_, ?_⟩
        · rw [List.any_cons, k1, decide_eq_false g4]; rfl
        · rw [List.mapM_cons, g1, k2]; rfl
        · intro x hx
          rcases List.mem_cons.1 hx with rfl | hx
          · exact ⟨g2, g3⟩
          · exact k3 x hx
  obtain ⟨k1, k2, k3⟩ := key indices js hj
  obtain ⟨out, o1, o2, o3⟩ := Bins.extractRanges_spec eqv heq init hdim (js.map (fun j => (j, j + 1))) ht hnan (by
    intro r hr
    obtain ⟨j, hj', rfl⟩ := List.mem_map.1 hr
    have := k3 j hj'
    simp only; omega)
  refine ⟨out, ?_, o2, ?_⟩
  · unfold sliceByList
    simp only [k1, k2, bind, Except.bind]
    exact o1
  · rw [o3, List.flatMap_map]
    have : ∀ j : Int, (intRange j (j + 1)).map (fun i => t.rowAt i.toNat) = [t.rowAt j.toNat] := by
      intro j
      unfold intRange
      rw [show (j + 1 - j).toNat = 1 by omega]
      simp
    simp only [this]
    exact List.flatMap_pure_eq_map (fun j : Int => t.rowAt j.toNat) js

/-- C58: a list with an integer outside the range is refused. -/
theorem C58_list_out_of_range {V : Type} (eqv : V → V → Bool) (init : Nat → V) (dim : Dim) (indices : List Int) (t : Bins.Table V)
    (i : Int) (hi : i ∈ indices) (hn : position? t.data.length i = none) : sliceByList eqv init dim indices t = .error .outOfRange := by
  unfold sliceByList
  simp only
  rw [if_pos]
  · rfl
  · rw [List.any_eq_true]
    refine ⟨i, hi, decide_eq_true ?_⟩
    unfold position? at hn
    split at hn
    · cases hn
    · split at hn
      · cases hn
      · omega

/-- `a[1:-1:2]`, `a[-3:]`, `a[5:2]` and `a[:100:3]` of a Python list of length 7. -/
example : positions 7 (some 1) (some (-1)) 2 = [1, 3, 5] ∧ positions 7 (some (-3)) none 1 = [4, 5, 6] ∧
    positions 7 (some 5) (some 2) 1 = [] ∧ positions 7 none (some 100) 3 = [0, 3, 6] := by decide

example := C58_slice ⟨[(3, 2), (2, 7)], [7, 1], 0, false⟩ (by simp [View.WF, Sizes.WF]) 2 7 (by decide) (by decide) (some 1) (some (-1)) (some 2)
  (by decide)

example : getitemSlice ⟨[(3, 2), (2, 7)], [7, 1], 0, false⟩ 2 (some 1) (some (-1)) (some 2) = .ok ⟨[(3, 2), (2, 3)], [7, 2], 1, false⟩ := by
  decide

example := C58_step ⟨[(3, 2), (2, 7)], [7, 1], 0, false⟩ 2 none none (-1) (by decide)

example := C58_int ⟨[(3, 2), (2, 7)], [7, 1], 0, false⟩ (by simp [View.WF, Sizes.WF]) 2 7 (by decide) (-2)

example : getitemInt ⟨[(3, 2), (2, 7)], [7, 1], 0, false⟩ 2 (-2) = .ok ⟨[(3, 2)], [7], 5, false⟩ ∧
    getitemInt ⟨[(3, 2), (2, 7)], [7, 1], 0, false⟩ 2 (-8) = .error .outOfRange := by decide

example := C58_missing_dim ⟨[(3, 2), (2, 7)], [7, 1], 0, false⟩ [(3, 2)] 4 (by decide) (by decide) (some (-1)) none none 0

example := C58_implicit_dim [(2, 7)] 2

example := C58_list_partial (· == ·) (by simp) (fun _ => 77) 2 (by decide) [-1, 0, 0] sampleArray sampleArray_ok.1 sampleArray_ok.2 [4, 0, 0]
  (by decide)

example : ((sliceByList (· == ·) (fun _ => 77) 2 [-1, 0, 0] sampleArray).map showRows).toOption =
    some [(some 14, none, some 24, some 9), (some 10, none, some 20, some 9), (some 10, none, some 20, some 9)] := rfl

example := C58_list_out_of_range (· == ·) (fun _ => 77) 2 [0, 5] sampleArray 5 (by decide) (by decide)

end Scipp.Props
