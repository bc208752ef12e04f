import Verif.Spec.Extract
import Verif.Props.Bins
/-!
Lemmas about extracting ranges of rows.
-/
namespace Scipp.Bins
open Scipp.Sizes
variable {V : Type}

theorem mem_stripEdges {t : Table V} {p : Dim × Col V} :
    p ∈ t.stripEdges.cols ↔ p ∈ t.cols ∧ p.2.isEdges t.data.length = false := by
  simp [Table.stripEdges]

theorem stripEdges_ok {t : Table V} (h : t.IsDataArray) : t.stripEdges.Ok := by
  refine ⟨(List.filter_sublist.map Prod.fst).nodup h.keys, fun k rows hk => ?_⟩
  obtain ⟨h1, h2⟩ := mem_stripEdges.1 hk
  rcases h.rows k rows h1 with h3 | h3
  · exact h3
  · simp [Col.isEdges, h3] at h2

theorem lookup_filter {cols : List (Dim × Col V)} (hk : (cols.map Prod.fst).Nodup) (f : Col V → Bool) (k : Dim) :
    lookupEntry (cols.filter (fun p => f p.2)) k = (lookupEntry cols k).filter f := by
  induction cols with
  | nil => rfl
  | cons p cols ih =>
    simp only [List.map_cons, List.nodup_cons] at hk
    have ih := ih hk.2
    by_cases hpk : p.1 = k
    · have hnone : lookupEntry cols k = none := lookup_none.2 (by rw [← hpk]; exact hk.1)
      by_cases hf : f p.2 = true
      · simp [hf, lookupEntry, hpk, Option.filter]
      · rw [List.filter_cons_of_neg (by simpa using hf), ih, hnone]
        simp [lookupEntry, hpk, Option.filter, hf]
    · by_cases hf : f p.2 = true
      · rw [List.filter_cons_of_pos (by simpa using hf)]
        simp only [lookupEntry, hpk, if_false] at ih ⊢
        exact ih
      · rw [List.filter_cons_of_neg (by simpa using hf), ih]
        simp only [lookupEntry, hpk, if_false]

/-- A row of the table without edges is a slice of the data array. -/
theorem event_stripEdges {t : Table V} (h : t.IsDataArray) (i : Nat) : t.stripEdges.event i = t.rowAt i := by
  unfold Table.event Table.rowAt
  refine congrArg (Event.mk _) (funext fun k => ?_)
  have hf := lookup_filter h.keys (fun c : Col V => !c.isEdges t.data.length) k
  simp only [Table.stripEdges, hf]
  cases hl : lookupEntry t.cols k with
  | none => rfl
  | some c =>
    cases c with
    | fixed v => simp [Option.filter, Col.isEdges, Col.at]
    | along rows =>
      rcases h.rows k rows (lookup_mem hl) with h3 | h3
      · simp [Option.filter, Col.isEdges, Col.at, h3]
      · simp [Option.filter, Col.isEdges, h3]

theorem rowAt_eq_event {t : Table V} (h : t.Ok) (i : Nat) : t.rowAt i = t.event i := by
  have hd : t.IsDataArray := ⟨h.keys, fun k rows hk => .inl (h.rows k rows hk)⟩
  rw [← event_stripEdges hd]
  have : t.stripEdges = t := by
    unfold Table.stripEdges
    have : t.cols.filter (fun p => !p.2.isEdges t.data.length) = t.cols := by
      refine List.filter_eq_self.2 (fun p hp => ?_)
      obtain ⟨k, c⟩ := p
      cases c with
      | fixed v => rfl
      | along rows => simp [Col.isEdges, h.rows k rows hp]
    rw [this]
  rw [this]

theorem rowList_eq {t : Table V} (h : t.Ok) : t.rowList = t.events (0, (t.data.length : Int)) := by
  unfold Table.rowList Table.events intRange
  simp only [sub_zero, Int.toNat_natCast, List.map_map]
  refine List.map_congr_left (fun i _ => ?_)
  simp [rowAt_eq_event h]

theorem contiguous_events (t : Table V) : ∀ (l : List (Int × Int)) (b n : Int), Contiguous b n l → t.events (b, n) = l.flatMap t.events
  | [], b, n, h => by
    simp only [Contiguous] at h
    subst h
    simp [Table.events, intRange]
  | r :: l, b, n, ⟨h1, h2, h3⟩ => by
    have hb := contiguous_bounds l r.2 n h3
    rw [List.flatMap_cons, ← contiguous_events t l r.2 n h3, events_append t (b := b) (m := r.2) (e := n) (by omega) hb.1]
    rw [← h1]

/-- Extracting ranges of rows: the rows of the ranges one after the other. -/
theorem extractRanges_spec (eqv : V → V → Bool) (heq : ∀ a b, eqv a b = true → a = b) (init : Nat → V) {dim : Dim} (hdim : dim ≠ Dim.invalid)
    (ranges : List (Int × Int)) {t : Table V} (ht : t.IsDataArray) (hnan : t.NoNaN eqv)
    (hr : ∀ r ∈ ranges, 0 ≤ r.1 ∧ r.1 ≤ r.2 ∧ r.2 ≤ t.data.length) :
    ∃ out, extractRanges eqv init dim ranges t = .ok out ∧ out.Ok ∧
      out.rowList = ranges.flatMap (fun r => (intRange r.1 r.2).map (fun i => t.rowAt i.toNat)) := by
  have hw : WF [(dim, (ranges.length : Int))] := by simp [WF, labels]
  have hv : Dim.invalid ∉ labels [(dim, (ranges.length : Int))] := by simpa [labels] using hdim.symm
  have hvol : ranges.length = (Dims.volume [(dim, (ranges.length : Int))]).toNat := by simp [Dims.volume, shape]
  have hvals := valuesOf_ofValues hw hvol
  have hx : Binned.Ok (V := V) ⟨ofValues [(dim, (ranges.length : Int))] ranges, t.stripEdges⟩ := by
    refine ⟨ofValues_ok hw hv _, stripEdges_ok ht, fun c hc => ?_⟩
    obtain ⟨p1, p2⟩ := position_bounds (s := [(dim, (ranges.length : Int))]) hc
    have hlt : (position [(dim, (ranges.length : Int))] c).toNat < ranges.length := by omega
    have := ofValues_val (dims := [(dim, (ranges.length : Int))]) (c := c) (List.getElem?_eq_getElem hlt)
    simp only [this]
    exact hr _ (List.getElem_mem hlt)
  have hn : t.stripEdges.NoNaN eqv := fun k v hk => hnan k v (mem_stripEdges.1 hk).1
  obtain ⟨out, h1, h2, h3, h4, h5⟩ := Props.C47_copy_partial eqv heq init _ hx hn
  refine ⟨out.buffer, by unfold extractRanges; rw [h1]; rfl, h3.buffer, ?_⟩
  rw [rowList_eq h3.buffer, contiguous_events _ _ _ _ h5]
  have hev : (valuesOf out.indices).map out.buffer.events = ranges.map t.stripEdges.events := by
    have e1 : (valuesOf out.indices).map out.buffer.events =
        (List.range (Dims.volume out.indices.dims).toNat).map (fun k : Nat => out.bin (coordsOf out.indices.dims k)) := by
      simp only [valuesOf, List.map_map]; rfl
    have e2 : ranges.map t.stripEdges.events = (List.range (Dims.volume [(dim, (ranges.length : Int))]).toNat).map
        (fun k : Nat => t.stripEdges.events ((ofValues [(dim, (ranges.length : Int))] ranges).val (coordsOf [(dim, (ranges.length : Int))] k))) := by
      conv_lhs => rw [← hvals]
      simp only [valuesOf, List.map_map]; rfl
    rw [e1, e2, h2]
    refine List.map_congr_left (fun k hk => ?_)
    rw [List.mem_range] at hk
    exact h4 _ (coordsOf_inDims hw (by omega) (by
      have : (ofValues [(dim, (ranges.length : Int))] ranges).dims = [(dim, (ranges.length : Int))] := rfl
      rw [this] at hk; omega))
  rw [List.flatMap_def, hev, ← List.flatMap_def]
  refine List.flatMap_congr (fun r _ => ?_)
  unfold Table.events
  refine List.map_congr_left (fun i _ => event_stripEdges ht _)

theorem intRange_succ {b i : Int} (h : b ≤ i) : intRange b (i + 1) = intRange b i ++ [i] := by
  unfold intRange
  have : (i + 1 - b).toNat = (i - b).toNat + 1 := by omega
  rw [this, List.range_succ, List.map_append]
  refine congrArg₂ _ rfl ?_
  simp only [List.map_cons, List.map_nil, List.cons.injEq, and_true]
  omega

/-- The positions of the elements that are true among the first `i`. -/
def truePositions (values : List Bool) (i : Nat) : List Int :=
  ((List.range i).filter (fun j => values[j]? = some true)).map (fun j : Nat => (j : Int))

theorem truePositions_succ (values : List Bool) (i : Nat) :
    truePositions values (i + 1) = truePositions values i ++ (if values[i]? = some true then [(i : Int)] else []) := by
  unfold truePositions
  rw [List.range_succ, List.filter_append, List.map_append]
  refine congrArg₂ _ rfl ?_
  by_cases h : values[i]? = some true <;> simp [h]

/-- State of the loop after `i` elements: if the last element is true the last range is open. -/
def RangesInv (values : List Bool) (i : Nat) (st : List (Int × Int)) : Prop :=
  if 0 < i ∧ values[i - 1]? = some true then
    ∃ (pre : List (Int × Int)) (b : Int), st = pre ++ [(b, (values.length : Int))] ∧ 0 ≤ b ∧ b < i ∧ (∀ r ∈ pre, 0 ≤ r.1 ∧ r.1 ≤ r.2 ∧ r.2 ≤ (values.length : Int)) ∧
      pre.flatMap (fun r => intRange r.1 r.2) ++ intRange b i = truePositions values i
  else (∀ r ∈ st, 0 ≤ r.1 ∧ r.1 ≤ r.2 ∧ r.2 ≤ (values.length : Int)) ∧
    st.flatMap (fun r => intRange r.1 r.2) = truePositions values i

theorem rangeStep_spec (values : List Bool) (i : Nat) (hi : i < values.length) (st : List (Int × Int)) (h : RangesInv values i st) :
    ∃ st', rangeStep values st i = .ok st' ∧ RangesInv values (i + 1) st' := by
  have hget : values[i]? = some values[i] := List.getElem?_eq_getElem hi
  unfold RangesInv at h ⊢
  unfold rangeStep
  simp only [Nat.add_sub_cancel, Nat.succ_pos, true_and, truePositions_succ]
  by_cases hprev : 0 < i ∧ values[i - 1]? = some true
  · rw [if_pos hprev] at h
    obtain ⟨pre, b, rfl, hb0, hbi, hpre, heq⟩ := h
    by_cases hv : values[i]? = some true
    · rw [if_pos ⟨hprev.1, by rw [hprev.2, hv]⟩, if_pos hv]
      simp only [if_pos hv]
      exact ⟨_, rfl, pre, b, rfl, hb0, by omega, hpre, by push_cast; rw [intRange_succ (by omega), ← List.append_assoc, heq]⟩
    · have hne : ¬ (0 < i ∧ values[i - 1]? = values[i]?) := by rw [hprev.2]; exact fun hc => hv hc.2.symm
      rw [if_neg hne, if_neg hv, if_pos (by omega), if_neg hv]
      simp only [if_neg hv, List.append_nil]
      simp only [List.getLast?_append, List.getLast?_singleton, Option.some_or, List.dropLast_concat]
      refine ⟨_, rfl, ?_, ?_⟩
      · intro r hr
        rcases List.mem_append.1 hr with hr | hr
        · exact hpre r hr
        · rw [List.mem_singleton.1 hr]; simp only; omega
      · rw [List.flatMap_append, ← heq]; simp
  · rw [if_neg hprev] at h
    obtain ⟨hst, heq⟩ := h
    by_cases hv : values[i]? = some true
    · have hne : ¬ (0 < i ∧ values[i - 1]? = values[i]?) := by rw [hv]; exact hprev
      rw [if_neg hne, if_pos hv, if_pos hv]
      simp only [if_pos hv]
      refine ⟨_, rfl, st, i, rfl, by omega, by push_cast; omega, hst, ?_⟩
      push_cast
      rw [intRange_succ (le_refl _), heq]
      simp [intRange]
    · rw [if_neg hv, if_neg hv]
      simp only [if_neg hv, List.append_nil]
      by_cases h0 : 0 < i
      · have : values[i - 1]? = values[i]? := by
          have hg : values[i - 1]? = some values[i - 1] := List.getElem?_eq_getElem (by omega)
          rw [hg, hget]
          have h1 : values[i - 1] = false := by
            cases hc : values[i - 1] with
            | false => rfl
            | true => exact absurd ⟨h0, by rw [hg, hc]⟩ hprev
          have h2 : values[i] = false := by
            cases hc : values[i] with
            | false => rfl
            | true => exact absurd (by rw [hget, hc]) hv
          rw [h1, h2]
        rw [if_pos ⟨h0, this⟩]
        exact ⟨_, rfl, hst, heq⟩
      · rw [if_neg (by omega), if_neg (by omega)]
        exact ⟨_, rfl, hst, heq⟩

/-- The ranges cover exactly the elements that are true. -/
theorem conditionRanges_spec (values : List Bool) : ∃ r, conditionRanges values = .ok r ∧
    (∀ p ∈ r, 0 ≤ p.1 ∧ p.1 ≤ p.2 ∧ p.2 ≤ (values.length : Int)) ∧
    r.flatMap (fun p => intRange p.1 p.2) = truePositions values values.length := by
  have hgo : ∀ n, n ≤ values.length → ∃ st, (List.range n).foldlM (rangeStep values) [] = .ok st ∧ RangesInv values n st := by
    intro n
    induction n with
    | zero => intro _; exact ⟨[], rfl, by simp [RangesInv, truePositions]⟩
    | succ n ih =>
      intro hn
      obtain ⟨st, h1, h2⟩ := ih (by omega)
      obtain ⟨st', h3, h4⟩ := rangeStep_spec values n (by omega) st h2
      refine ⟨st', ?_, h4⟩
      rw [List.range_succ, List.foldlM_append, h1]
      show rangeStep values st n >>= _ = _
      rw [h3]; rfl
  obtain ⟨st, h1, h2⟩ := hgo _ (le_refl _)
  refine ⟨st, h1, ?_⟩
  unfold RangesInv at h2
  split at h2
  · obtain ⟨pre, b, rfl, hb0, hbi, hpre, heq⟩ := h2
    refine ⟨?_, by rw [List.flatMap_append, ← heq]; simp⟩
    intro r hr
    rcases List.mem_append.1 hr with hr | hr
    · exact hpre r hr
    · rw [List.mem_singleton.1 hr]; simp only; omega
  · exact h2

end Scipp.Bins
