import Verif.Lemmas.AutoBins3

/-!
# C108: automatically determined bins and groups contain all data

`hist(x=5)` and `bin(x=step)` find the edges from the data, `group('label')` finds the groups. What is lost here is lost silently: values
outside of the edges are not in the result.
-/

namespace Scipp.Props
open Scipp Scipp.AutoBins Numeric

/-- For a number of bins and an integer coordinate every value is in a bin, if the numbers are less than 2^53. Missing: larger numbers
(`C108_wrong_large_int`), datasets whose largest value is not in the last item (`C108_wrong_dataset_max`), binned data with a coordinate that
is not that of the events (`C108_wrong_bin_coord`). -/
theorem C108_count_int_partial (L : Limits Int) (x : Source Int) (n : Nat) (hn : 1 ≤ n) (hreg : x.Regular)
    (hlim : InLimits L x.numbers) (hne : x.values ≠ []) (hsmall : ∀ u ∈ x.numbers, |u| < 2 ^ 53) :
    ∃ edges, countEdgesInt L x n = .ok edges ∧ edges.length = n + 1 ∧ ∀ v ∈ x.values, InBin edges v := by
  obtain ⟨start, stop, hb, h1, h2, h3⟩ := bounds_spec (upper := upperInt) hreg hlim hne (fun m _ => by simp [upperInt])
  obtain ⟨v0, hv0⟩ := List.exists_mem_of_ne_nil _ hne
  have hstart : |start| ≤ 2 ^ 53 := by
    have h4 := h2 (-2 ^ 53) (fun u hu => le_of_lt (abs_lt.1 (hsmall u hu)).1)
    have h5 := h1 v0 hv0
    have h6 := (abs_lt.1 (hsmall v0 (values_sub x v0 hv0))).2
    rw [abs_le]; constructor <;> omega
  have hstop : |stop| ≤ 2 ^ 53 ∧ ∀ v ∈ x.values, v < stop := by
    rcases h3 with ⟨m, hm, hmax, rfl⟩ | ⟨hs, hmax⟩
    · have h4 := abs_lt.1 (hsmall m (values_sub x m hm))
      refine ⟨?_, fun v hv => ?_⟩
      · simp only [upperInt]; rw [abs_le]; constructor <;> omega
      · have := hmax v hv; simp only [upperInt]; omega
    · exact ⟨le_of_lt (hsmall _ hs), hmax⟩
  refine ⟨_, by simp only [countEdgesInt, hb, bind, Except.bind]; rfl, by simp [npLinspace_length], fun v hv => ?_⟩
  exact inBin_map truncate_int hn hstart hstop.1 (h1 v hv) (hstop.2 v hv)

/-- The same for a coordinate of datetimes. Missing: datetimes 2^53 or more units after the epoch, e.g., any in nanoseconds after the first
105 days (`C108_wrong_time`), and as above. -/
theorem C108_count_time_partial (L : Limits Int) (x : Source Int) (n : Nat) (hn : 1 ≤ n) (hreg : x.Regular)
    (hlim : InLimits L x.numbers) (hne : x.values ≠ []) (hsmall : ∀ u ∈ x.numbers, |u| < 2 ^ 53) :
    ∃ edges, countEdgesTime L x n = .ok edges ∧ edges.length = n + 1 ∧ ∀ v ∈ x.values, InBin edges v := by
  obtain ⟨start, stop, hb, h1, h2, h3⟩ := bounds_spec (upper := upperInt) hreg hlim hne (fun m _ => by simp [upperInt])
  obtain ⟨v0, hv0⟩ := List.exists_mem_of_ne_nil _ hne
  have hstart : |start| ≤ 2 ^ 53 := by
    have h4 := h2 (-2 ^ 53) (fun u hu => le_of_lt (abs_lt.1 (hsmall u hu)).1)
    have h5 := h1 v0 hv0
    have h6 := (abs_lt.1 (hsmall v0 (values_sub x v0 hv0))).2
    rw [abs_le]; constructor <;> omega
  have hstop : |stop| ≤ 2 ^ 53 ∧ ∀ v ∈ x.values, v < stop := by
    rcases h3 with ⟨m, hm, hmax, rfl⟩ | ⟨hs, hmax⟩
    · have h4 := abs_lt.1 (hsmall m (values_sub x m hm))
      refine ⟨?_, fun v hv => ?_⟩
      · simp only [upperInt]; rw [abs_le]; constructor <;> omega
      · have := hmax v hv; simp only [upperInt]; omega
    · exact ⟨le_of_lt (hsmall _ hs), hmax⟩
  refine ⟨_, by simp only [countEdgesTime, hb, bind, Except.bind]; rfl, by simp [npLinspace_length], fun v hv => ?_⟩
  exact inBin_map roundHalfEven_int hn hstart hstop.1 (h1 v hv) (hstop.2 v hv)

/-- The same for a coordinate of type `double`. Missing: numbers of 2^53 or more (`C108_wrong_large_float`), and as above. -/
theorem C108_count_float_partial (L : Limits ℚ) (x : Source ℚ) (n : Nat) (hn : 1 ≤ n) (hreg : x.Regular)
    (hlim : InLimits L x.numbers) (hne : x.values ≠ []) (hdbl : ∀ v ∈ x.values, roundDouble v = v) (hsmall : ∀ v ∈ x.values, |v| < 2 ^ 53) :
    ∃ edges, countEdgesFloat L x n = .ok edges ∧ edges.length = n + 1 ∧ ∀ v ∈ x.values, InBin edges v := by
  obtain ⟨start, stop, hb, h1, _, h3⟩ := bounds_spec (upper := upperFloat) hreg hlim hne (fun m hm => le_upperFloat (hdbl m hm))
  have hstop : ∀ v ∈ x.values, v < stop := by
    rcases h3 with ⟨m, hm, hmax, rfl⟩ | ⟨_, hmax⟩
    · exact fun v hv => lt_of_le_of_lt (hmax v hv) (lt_upperFloat (hsmall m hm))
    · exact hmax
  refine ⟨_, by simp only [countEdgesFloat, hb, bind, Except.bind]; rfl, by simp [npLinspace_length], fun v hv => ?_⟩
  exact inBin_of_ends (npLinspace_head _ _ _) (npLinspace_last _ _ hn) (h1 v hv) (hstop v hv)

/-- For a step and an integer coordinate every value is in a bin, and every bin is as wide as the step. Missing: datasets and binned data as
above. For numbers of type `double` this does not hold, see `C108_wrong_float_step`. -/
theorem C108_step_int_partial (L : Limits Int) (x : Source Int) (step : Int) (hs : 0 < step) (hreg : x.Regular)
    (hlim : InLimits L x.numbers) (hne : x.values ≠ []) :
    ∃ edges, stepEdgesInt L x step = .ok edges ∧ (∀ (i : Nat) (a b : Int), edges[i]? = some a → edges[i + 1]? = some b → b = a + step) ∧
      ∀ v ∈ x.values, InBin edges v := by
  obtain ⟨start, stop, hb, h1, _, h3⟩ := bounds_spec (upper := upperInt) hreg hlim hne (fun m _ => by simp [upperInt])
  obtain ⟨v0, hv0⟩ := List.exists_mem_of_ne_nil _ hne
  have hstop : ∀ v ∈ x.values, v < stop := by
    rcases h3 with ⟨m, hm, hmax, rfl⟩ | ⟨_, hmax⟩
    · intro v hv; have := hmax v hv; simp only [upperInt]; omega
    · exact hmax
  obtain ⟨k, hk, hlast⟩ := npArange_length hs (lt_of_le_of_lt (h1 v0 hv0) (hstop v0 hv0))
  have hne0 : step ≠ 0 := by omega
  refine ⟨_, by simp only [stepEdgesInt, hb, bind, Except.bind, if_neg hne0]; rfl, ?_, fun v hv => ?_⟩
  · intro i a b ha hb'
    simp only [npArangeInt, List.getElem?_map, Option.map_eq_some_iff] at ha hb'
    obtain ⟨j, hj, rfl⟩ := ha
    obtain ⟨j', hj', rfl⟩ := hb'
    obtain ⟨_, rfl⟩ := List.getElem?_eq_some_iff.1 hj
    obtain ⟨_, rfl⟩ := List.getElem?_eq_some_iff.1 hj'
    simp only [List.getElem_range]
    push_cast
    ring
  · refine inBin_of_ends (a := start) (b := start + ((k + 1 : Nat) : Int) * step) ?_ ?_ (h1 v hv) (lt_of_lt_of_le (hstop v hv) hlast)
    · simp only [npArangeInt, hk, List.head?_map, List.head?_range]
      simp
    · simp only [npArangeInt, hk, List.getLast?_map, List.getLast?_range]
      simp

/-- Which range of values is found for a dataset of binned data: from the smallest value of all items to the largest value of the *last*
item, instead of the largest value of all items. -/
theorem C108_dataset_range (L : Limits Int) (items : List (List Int)) (last : List Int) (hl : items.getLast? = some last)
    (hlast : last ≠ []) (hlim : InLimits L items.flatten) :
    ∃ lo hi, getCoord L (.dataset none (items.map some)) = .ok [lo, hi] ∧ (∀ v ∈ items.flatten, lo ≤ v) ∧ lo ∈ items.flatten ∧
      hi ∈ last ∧ ∀ v ∈ last, v ≤ hi := by
  have hmapM : (items.map some).mapM (coordOfArray (none : Option (List Int × Bool))) = .ok items := by
    rw [mapM_coordOfArray_none _ (by simp)]
    simp
  have hlastmem := List.mem_of_getLast? hl
  have hll : InLimits L last := fun u hu => hlim u (List.mem_flatten.2 ⟨last, hlastmem, hu⟩)
  obtain ⟨y, hy⟩ := List.exists_mem_of_ne_nil _ hlast
  cases items with
  | nil => simp at hl
  | cons c cs =>
    obtain ⟨M, h1, h2⟩ := rangeLoop_none (L := L) hmapM (by
      intro c' hc'
      rw [hl] at hc'
      cases hc'
      exact le_trans (minOf_le hy) (le_maxOf hy))
    have hM := h2 last hl
    have hlow : ∀ v ∈ (c :: cs).flatten, cs.foldl (fun m c => min m (minOf L c)) (minOf L c) ≤ v := by
      intro v hv
      obtain ⟨c', hc', hv⟩ := List.mem_flatten.1 hv
      refine le_trans ?_ (minOf_le (L := L) hv)
      rcases List.mem_cons.1 hc' with rfl | hc'
      · exact (foldl_minOf_le cs _).1
      · exact (foldl_minOf_le cs _).2 c' hc'
    refine ⟨_, M, by rw [getCoord, h1]; rfl, hlow, ?_, hM ▸ maxOf_mem hll hlast, fun v hv => hM ▸ le_maxOf hv⟩
    have hne : (c :: cs).flatten ≠ [] := List.ne_nil_of_mem (List.mem_flatten.2 ⟨last, hlastmem, hy⟩)
    have hmem := minOf_mem hlim hne
    have hle : minOf L (c :: cs).flatten ≤ cs.foldl (fun m c => min m (minOf L c)) (minOf L c) := by
      have hw : minOf L (c :: cs).flatten ≤ L.highest := (hlim _ hmem).2
      have hall : ∀ c' ∈ c :: cs, minOf L (c :: cs).flatten ≤ minOf L c' := fun c' hc' =>
        le_minOf hw (fun u hu => minOf_le (List.mem_flatten.2 ⟨c', hc', hu⟩))
      exact le_foldl_minOf cs _ (hall c List.mem_cons_self) (fun c' hc' => hall c' (List.mem_cons_of_mem _ hc'))
    rw [le_antisymm (hlow _ hmem) hle]
    exact hmem

/-- The groups are the values that occur, each once, in ascending order, although not all values are looked at. Missing: a coordinate with
both the smallest and the largest number of its type, see `C108_wrong_groups`. -/
theorem C108_groups_partial (bits : Nat) (hb : 1 ≤ bits) (L : Limits Int) (rows : List (List Int)) (hlim : InLimits L rows.flatten)
    (hrange : ∀ x ∈ rows.flatten, ∀ y ∈ rows.flatten, y - x + 1 < 2 ^ bits) :
    (makeGroups bits L rows).Pairwise (· < ·) ∧ ∀ y, y ∈ makeGroups bits L rows ↔ y ∈ rows.flatten := by
  unfold makeGroups
  split_ifs with h
  · rw [h]; simp
  · have hmin := minOf_mem hlim h
    have hmax := maxOf_mem hlim h
    refine groupLoop_spec hb (minOf_le hmax) (hrange _ hmin _ hmax) (fun y hy => ⟨minOf_le hy, le_maxOf hy⟩) _ _ List.Pairwise.nil
      (by simp) (by simp) (by simp)

private theorem not_inBin {V : Type} [LinearOrder V] {edges : List V} {x : V} (h : ∀ e ∈ edges, e ≤ x) : ¬ InBin edges x := by
  rintro ⟨i, a, b, _, hb, _, hx⟩
  exact absurd hx (not_lt.2 (h b (List.mem_of_getElem? hb)))

private theorem not_inBin_above {V : Type} [LinearOrder V] {edges : List V} {x : V} (h : ∀ e ∈ edges, x < e) : ¬ InBin edges x := by
  rintro ⟨i, a, b, ha, _, hx, _⟩
  exact absurd (h a (List.mem_of_getElem? ha)) (not_lt.2 hx)

/-- A dataset of two items of binned data. Values above the largest value of the second item are not in any bin. -/
theorem C108_wrong_dataset_max :
    countEdgesInt int64Limits (.dataset none [some [0, 10, 7], some [1, 3]]) 2 = .ok [0, 2, 4] ∧
      (10 : Int) ∈ (Source.dataset none [some [0, 10, 7], some [1, 3]]).values ∧ ¬ InBin [0, 2, 4] (10 : Int) :=
  ⟨by decide +kernel, by decide, not_inBin (by decide)⟩

/-- Binned data with a coordinate of the bins (not edges, e.g., their centers) besides the coordinate of the events: the former gives the
range. -/
theorem C108_wrong_bin_coord :
    countEdgesInt int64Limits (.array (some ([5, 15], false)) (some [1, 9, 11, 19])) 2 = .ok [5, 10, 16] ∧
      (19 : Int) ∈ (Source.array (some ([5, 15], false)) (some [1, 9, 11, 19])).values ∧ ¬ InBin [5, 10, 16] (19 : Int) :=
  ⟨by decide +kernel, by decide, not_inBin (by decide)⟩

/-- Large integers: the last edge is rounded to the largest value, which is then in no bin. -/
theorem C108_wrong_large_int :
    countEdgesInt int64Limits (.var [0, 2 ^ 53 + 4]) 1 = .ok [0, 2 ^ 53 + 4] ∧ ¬ InBin [0, 2 ^ 53 + 4] ((2 : Int) ^ 53 + 4) :=
  ⟨by decide +kernel, not_inBin (by decide)⟩

/-- Datetimes in nanoseconds, of November 2023: both edges are rounded to multiples of 256 ns. Neither of the two values is in the bin. -/
theorem C108_wrong_time :
    countEdgesTime int64Limits (.var [1700000000000000200, 1700000001000000100]) 1 = .ok [1700000000000000256, 1700000001000000000] ∧
      ¬ InBin [1700000000000000256, 1700000001000000000] (1700000000000000200 : Int) ∧
      ¬ InBin [1700000000000000256, 1700000001000000000] (1700000001000000100 : Int) :=
  ⟨by decide +kernel, not_inBin_above (by decide), not_inBin (by decide)⟩

/-- Large numbers of type `double`: adding 1 does not change the number, so the largest value is the last edge. -/
theorem C108_wrong_large_float :
    countEdgesFloat doubleLimits (.var [0, 2 ^ 53]) 1 = .ok [0, 2 ^ 53] ∧ ¬ InBin [0, 2 ^ 53] ((2 : ℚ) ^ 53) :=
  ⟨by decide +kernel, not_inBin (by decide +kernel)⟩

/-- A step and the numbers 0, 1, 2, 3 of type `double`: the number following 3 is rounded to 4 when adding the step, so 3 is the last edge and
in no bin. -/
theorem C108_wrong_float_step :
    stepEdgesFloat doubleLimits (.var [0, 1, 2, 3]) 1 = .ok [0, 1, 2, 3] ∧ ¬ InBin [0, 1, 2, 3] (3 : ℚ) :=
  ⟨by decide +kernel, not_inBin (by decide +kernel)⟩

/-- The smallest and the largest number of the type: their difference plus one is wrapped to zero, the number of groups found before looking
at the first value, so there are no groups. -/
theorem C108_wrong_groups :
    makeGroups 64 int64Limits [[-2 ^ 63], [0], [2 ^ 63 - 1]] = [] ∧ (0 : Int) ∈ [[-2 ^ 63], [0], [2 ^ 63 - 1]].flatten := by
  decide +kernel

/-! ## Examples -/

/-- Two items of binned data. -/
private def exampleItems : Source Int := .dataset none [some [4, 1], some [], some [2, 9]]

private theorem exampleItems_regular : exampleItems.Regular := by
  refine ⟨by decide, [2, 9], rfl, ?_⟩
  decide

example : ∃ edges, countEdgesInt int64Limits exampleItems 3 = .ok edges ∧ edges.length = 4 ∧ ∀ v ∈ exampleItems.values, InBin edges v :=
  C108_count_int_partial _ _ 3 (by decide) exampleItems_regular (by unfold InLimits; decide) (by decide) (by decide)

example : ∃ edges, countEdgesTime int64Limits exampleItems 3 = .ok edges ∧ edges.length = 4 ∧ ∀ v ∈ exampleItems.values, InBin edges v :=
  C108_count_time_partial _ _ 3 (by decide) exampleItems_regular (by unfold InLimits; decide) (by decide) (by decide)

example : countEdgesInt int64Limits exampleItems 3 = .ok [1, 4, 7, 10] := by decide +kernel

example : ∃ edges, stepEdgesInt int64Limits exampleItems 4 = .ok edges ∧
    (∀ (i : Nat) (a b : Int), edges[i]? = some a → edges[i + 1]? = some b → b = a + 4) ∧ ∀ v ∈ exampleItems.values, InBin edges v :=
  C108_step_int_partial _ _ 4 (by decide) exampleItems_regular (by unfold InLimits; decide) (by decide)

example : stepEdgesInt int64Limits exampleItems 4 = .ok [1, 5, 9, 13] := by decide +kernel

/-- Binned data with bin edges. -/
private def exampleEdges : Source ℚ := .array (some ([0, 1, 5 / 2], true)) (some [1 / 4, 2, 9 / 4])

example : ∃ edges, countEdgesFloat doubleLimits exampleEdges 2 = .ok edges ∧ edges.length = 3 ∧ ∀ v ∈ exampleEdges.values, InBin edges v := by
  refine C108_count_float_partial _ _ 2 (by decide) ?_ (by unfold InLimits; decide +kernel) (by decide +kernel) (by decide +kernel)
    (by decide +kernel)
  intro c hc
  cases hc
  refine ⟨rfl, ?_⟩
  decide +kernel

example : countEdgesFloat doubleLimits exampleEdges 2 = .ok [0, 5 / 4, 5 / 2] := by decide +kernel

example : ∃ lo hi, getCoord int64Limits (.dataset none ([[0, 10, 7], [1, 3]].map some)) = .ok [lo, hi] ∧
    (∀ v ∈ [[0, 10, 7], [1, 3]].flatten, lo ≤ v) ∧ lo ∈ [[0, 10, 7], [1, 3]].flatten ∧ hi ∈ [1, 3] ∧ ∀ v ∈ [1, 3], v ≤ hi :=
  C108_dataset_range _ _ _ rfl (by decide) (by unfold InLimits; decide)

example : (makeGroups 64 int64Limits [[3, 1], [1, 7]]).Pairwise (· < ·) ∧ ∀ y, y ∈ makeGroups 64 int64Limits [[3, 1], [1, 7]] ↔ y ∈ [3, 1, 1, 7] :=
  C108_groups_partial 64 (by decide) _ _ (by unfold InLimits; decide) (by decide)

example : makeGroups 64 int64Limits [[3, 1], [1, 7]] = [1, 3, 7] := by decide +kernel

/-- The upper bound for numbers of type `double` is the next one: it is a `double`, larger than the number, and there is none in between. -/
theorem C108_upper_bound (x : ℚ) (hx : roundDouble x = x) (h0 : x ≠ 0) (hs : |x| < 2 ^ 53) :
    x < upperFloat x ∧ roundDouble (upperFloat x) = upperFloat x ∧ ∀ y, roundDouble y = y → x < y → upperFloat x ≤ y := by
  have h := lt_round_succ hs
  have he : upperFloat x = nextUp x := by
    unfold upperFloat nextAfter
    rw [if_neg h.ne', if_pos h]
  rw [he]
  exact ⟨nextUp_gt x, nextUp_least hx h0⟩

example : ∀ y, roundDouble y = y → (-3 : ℚ) < y → upperFloat (-3) ≤ y :=
  (C108_upper_bound (-3) (by decide +kernel) (by norm_num) (by norm_num)).2.2

/-- For a number of bins the edges are evenly spaced, without rounding as long as all numbers are integers that are not too large. -/
theorem C108_spacing_count_partial (a s : Int) (n : Nat) (hn : 1 ≤ n) (hn2 : n ≤ 2 ^ 53) (ha : |a| ≤ 2 ^ 52) (hs : |(n : Int) * s| ≤ 2 ^ 52) :
    npLinspace a ((a + n * s : Int) : ℚ) (n + 1) = (List.range (n + 1)).map (fun i : Nat => ((a + (i : Int) * s : Int) : ℚ)) :=
  npLinspace_exact a s n hn hn2 ha hs

example : npLinspace 7 56 50 = (List.range 50).map (fun i : Nat => ((7 + (i : Int) * 1 : Int) : ℚ)) := by
  simpa using C108_spacing_count_partial 7 1 49 (by decide) (by decide) (by decide) (by decide)

/-- For a given step the distance of edges is the step, without rounding as long as all numbers are integers that are not too large. -/
theorem C108_spacing_step_partial (a s : Int) (k : Nat) (hs0 : 0 < s) (ha : |a| ≤ 2 ^ 51) (hs : |s| ≤ 2 ^ 51) (hk : |(k : Int) * s| ≤ 2 ^ 51) :
    npArangeFloat a ((a + k * s : Int) : ℚ) s = (List.range k).map (fun i : Nat => ((a + (i : Int) * s : Int) : ℚ)) :=
  npArangeFloat_exact a s k hs0 ha hs hk

example : npArangeFloat (-3) 12 5 = [-3, 2, 7] := by
  have := C108_spacing_step_partial (-3) 5 3 (by decide) (by decide) (by decide) (by decide)
  norm_num [List.range_succ] at this
  exact this

end Scipp.Props
