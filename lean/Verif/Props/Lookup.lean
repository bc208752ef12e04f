import Verif.Lemmas.Histogram
/-!
Property C26: values looked up by coordinate.
-/
namespace Scipp.Props
open Scipp Spec SubbinSizes
variable {α : Type} [LinearOrder α] {W : Type}

theorem maskedData_get (mask : List Bool) (values : List W) (fill : W) (i : Nat) (m : Bool) (v : W) (hm : mask[i]? = some m)
    (hv : values[i]? = some v) : (maskedData mask values fill)[i]? = some (if m then fill else v) := by
  rw [maskedData, List.getElem?_zipWith, hm, hv]

theorem getWeight_ok (weights : List W) (i : Nat) (w : W) (h : weights[i]? = some w) : getWeight weights i = .ok w := by
  simp [getWeight, vecGet_nat, h]

/-- The two search paths in terms of the bin found. -/
theorem mapSortedEdges_eq {edges : List α} (weights : List W) (fill : W) (x : Option α) :
    mapSortedEdges edges weights fill x = if updateBinSorted edges x 0 < 0 then .ok fill
      else getWeight weights (updateBinSorted edges x 0) := by
  have hub : upperBound edges x ≤ edges.length := (List.takeWhile_prefix _).length_le
  simp only [mapSortedEdges, updateBinSorted, (by decide : ¬ ((0 : Int) = -1)), if_false]
  by_cases hc : upperBound edges x = edges.length ∨ upperBound edges x = 0
  · rw [if_pos hc, if_pos hc.symm, if_pos (by omega)]
  · rw [if_neg hc, if_neg (show ¬ (upperBound edges x = 0 ∨ upperBound edges x = edges.length) by omega), if_neg (by omega)]
    congr 1; omega

/-- **C26** (`map`): the value of the (unmasked) bin containing the coordinate is returned; the fill value if the bin is masked or no bin
contains the coordinate. Both paths give this, the fast path provided its guess is within one bin. -/
theorem C26_map (lin : List α → Bool) (guess : List α → α → Int) (edges : List α) (h : Ascending edges)
    (hlin : lin edges = true → GuessOk edges (guess edges)) (mask : List Bool) (values : List W)
    (hl : edges.length = values.length + 1) (fill : W) (x : Option α) :
    (∀ i m v, InBin edges i x → mask[i]? = some m → values[i]? = some v →
      mapFunction lin guess edges mask values fill x = .ok (if m then fill else v)) ∧
    ((∀ i, ¬ InBin edges i x) → mapFunction lin guess edges mask values fill x = .ok fill) := by
  have hne : edges ≠ [] := by rintro rfl; simp at hl
  have heq : mapFunction lin guess edges mask values fill x = if updateBinSorted edges x 0 < 0 then .ok fill
      else getWeight (maskedData mask values fill) (updateBinSorted edges x 0) := by
    simp only [mapFunction]
    rw [if_neg (by omega)]
    by_cases hl : lin edges = true
    · rw [if_pos hl]
      obtain ⟨b, hb, hs⟩ := getBin_spec h hne (guess edges) x (by
        intro v i hx hi; subst hx; exact hlin hl v i hi)
      rw [← IsBinOf.unique h hs (updateBinSorted_spec h x)]
      simp only [mapLinspace, hb]
    · rw [if_neg hl, if_pos ((isSorted_iff edges).mpr h), mapSortedEdges_eq]
  constructor
  · intro i m v hi hmi hvi
    have := IsBinOf.unique h (updateBinSorted_spec h x) (Or.inl ⟨i, rfl, hi⟩)
    rw [heq, this, if_neg (by omega), getWeight_ok _ i _ (maskedData_get mask values fill i m v hmi hvi)]
  · intro hn
    have := IsBinOf.unique h (updateBinSorted_spec h x) (Or.inr ⟨rfl, hn⟩)
    rw [heq, this, if_pos (by omega)]

example := (C26_map (fun _ => false) (fun _ _ => 0) [(0 : Int), 2, 5] (by unfold Ascending; decide) (by simp) [false, true] [10, 20]
  rfl (-1) (some 2)).1 1 true 20 ⟨2, 2, 5, rfl, rfl, rfl, by decide, by decide⟩ rfl rfl

/-- **C26** (`map`): a function that is not a histogram, i.e., whose coord does not have one more element than its values, is rejected. -/
theorem C26_map_needs_edges (lin : List α → Bool) (guess : List α → α → Int) (edges : List α) (mask : List Bool) (values : List W)
    (hl : edges.length ≠ values.length + 1) (fill : W) (x : Option α) :
    mapFunction lin guess edges mask values fill x = .error .binEdge := by
  unfold mapFunction
  rw [if_pos hl]

example : mapFunction (fun _ => false) (fun _ _ => 0) [(0 : Int), 1, 2] [false, false, false] [10, 20, 30] (-1) (some 1) =
    .error .binEdge := by decide

/-- **C26** (`bins.scale`): an event is multiplied by the value of the bin containing it, or by zero if the bin is masked or there is
none. -/
theorem C26_scale {W : Type} [MulZeroClass W] (lin : List α → Bool) (guess : List α → α → Int) (edges : List α)
    (h : Ascending edges) (hlin : lin edges = true → edges ≠ [] ∧ GuessOk edges (guess edges)) (mask : List Bool)
    (values : List W) (hl : edges.length = values.length + 1) (x : Option α) (data : W) :
    (∀ i m v, InBin edges i x → mask[i]? = some m → values[i]? = some v →
      scaleEvent lin guess edges mask values x data = .ok (if m then 0 else data * v)) ∧
    ((∀ i, ¬ InBin edges i x) → scaleEvent lin guess edges mask values x data = .ok 0) := by
  have hne : edges ≠ [] := by rintro rfl; simp at hl
  have heq : scaleEvent lin guess edges mask values x data = if updateBinSorted edges x 0 < 0 then .ok (data * 0)
      else (getWeight (maskedData mask values 0) (updateBinSorted edges x 0)).map (data * ·) := by
    simp only [scaleEvent]
    by_cases hl : lin edges = true
    · rw [if_pos hl]
      obtain ⟨b, hb, hs⟩ := getBin_spec h hne (guess edges) x (by
        intro v i hx hi; subst hx; exact (hlin hl).2 v i hi)
      rw [← IsBinOf.unique h hs (updateBinSorted_spec h x), hb]
      dsimp only
      cases getWeight (maskedData mask values 0) b <;> rfl
    · rw [if_neg hl, if_pos ((isSorted_iff edges).mpr h)]
      have hub : upperBound edges x ≤ edges.length := (List.takeWhile_prefix _).length_le
      simp only [updateBinSorted, (by decide : ¬ ((0 : Int) = -1)), if_false]
      by_cases hc : upperBound edges x = edges.length ∨ upperBound edges x = 0
      · rw [if_pos hc, if_pos hc.symm, if_pos (by omega)]
      · rw [if_neg hc, if_neg (show ¬ (upperBound edges x = 0 ∨ upperBound edges x = edges.length) by omega), if_neg (by omega)]
        have : (0 : Int) * ((edges.length : Int) - 1) + ((upperBound edges x : Int) - 1) = (upperBound edges x : Int) - 1 := by
          omega
        rw [this]
        cases getWeight (maskedData mask values 0) ((upperBound edges x : Int) - 1) <;> rfl
  constructor
  · intro i m v hi hmi hvi
    have := IsBinOf.unique h (updateBinSorted_spec h x) (Or.inl ⟨i, rfl, hi⟩)
    rw [heq, this, if_neg (by omega), getWeight_ok _ i _ (maskedData_get mask values 0 i m v hmi hvi)]
    cases m <;> simp [Except.map]
  · intro hn
    have := IsBinOf.unique h (updateBinSorted_spec h x) (Or.inr ⟨rfl, hn⟩)
    rw [heq, this, if_pos (by omega), mul_zero]

example := (C26_scale (fun _ => false) (fun _ _ => 0) [(0 : Int), 2, 5] (by unfold Ascending; decide) (by simp) [false, true]
  [10, (20 : Int)] rfl (some 1) 3).1 0 false 10 ⟨1, 0, 2, rfl, rfl, rfl, by decide, by decide⟩ rfl rfl

/-- Unsorted coordinates are rejected by `lookup` and, unless classified as linear, by `map`. -/
theorem C26_unsorted_rejected (xs : List α) (h : ¬ Ascending xs) (mask : List Bool) (values : List W) (fill : W)
    (p : Option α) (lin : List α → Bool) (guess : List α → α → Int) (hlin : lin xs = false) :
    lookupPrevious xs mask values fill p = .error .dataArray ∧
    mapFunction lin guess xs mask values fill p = .error .binEdge := by
  have : isSorted xs = false := by
    by_contra hc
    exact h ((isSorted_iff xs).mp (by simpa using hc))
  refine ⟨by simp [lookupPrevious, this], ?_⟩
  simp only [mapFunction, hlin, this]
  split <;> simp

example := C26_unsorted_rejected [(0 : Int), 5, 2] (by unfold Ascending; decide) [false, false] [10, 20] (-1) (some 1)
  (fun _ => false) (fun _ _ => 0) rfl

/-- **C26** (`lookup` in mode `previous`): the value at the last point not greater than the coordinate (the fill value if that is masked),
the fill value before the first point. Partial: a NaN coordinate, not greater or less than any point, gives the last value and not the fill
value, see `C26_lookup_nan`. -/
theorem C26_lookup_previous_partial (xs : List α) (h : Ascending xs) (mask : List Bool) (values : List W)
    (hl : xs.length = values.length) (fill : W) (p : α) :
    (∀ (i : Nat) a m v, xs[i]? = some a → a ≤ p → (∀ (j : Nat) b, i < j → xs[j]? = some b → p < b) → mask[i]? = some m →
      values[i]? = some v → lookupPrevious xs mask values fill (some p) = .ok (if m then fill else v)) ∧
    ((∀ (i : Nat) a, xs[i]? = some a → p < a) → lookupPrevious xs mask values fill (some p) = .ok fill) := by
  obtain ⟨h1, h2, h3⟩ := @upperBound_spec α _ xs p
  simp only [lookupPrevious, if_pos ((isSorted_iff xs).mpr h), lookupPreviousElem]
  constructor
  · intro i a m v ha hap hnext hmi hvi
    obtain ⟨hi, _⟩ := List.getElem?_eq_some_iff.mp ha
    have hub : upperBound xs (some p) = i + 1 := by
      rcases Nat.lt_trichotomy (upperBound xs (some p)) (i + 1) with hlt | heq | hgt
      · exfalso
        have hlt' : upperBound xs (some p) < xs.length := by omega
        have h4 := h2 _ (List.getElem?_eq_getElem hlt')
        have h5 := Ascending.le h (show upperBound xs (some p) ≤ i by omega) (List.getElem?_eq_getElem hlt') ha
        exact absurd (lt_of_lt_of_le h4 (le_trans h5 hap)) (lt_irrefl _)
      · exact heq
      · exfalso
        have hlt' : i + 1 < xs.length := by omega
        have h4 := h1 (i + 1) _ hgt (List.getElem?_eq_getElem hlt')
        have h5 := hnext (i + 1) _ (by omega) (List.getElem?_eq_getElem hlt')
        exact absurd (lt_of_lt_of_le h5 h4) (lt_irrefl _)
    rw [hub, if_neg (by omega)]
    have : ((i + 1 : Nat) : Int) - 1 = i := by omega
    rw [this]
    exact getWeight_ok _ i _ (maskedData_get mask values fill i m v hmi hvi)
  · intro hall
    have hub : upperBound xs (some p) = 0 := by
      by_contra hne
      have hlt' : 0 < xs.length := by omega
      have h4 := h1 0 _ (by omega) (List.getElem?_eq_getElem hlt')
      exact absurd (lt_of_lt_of_le (hall 0 _ (List.getElem?_eq_getElem hlt')) h4) (lt_irrefl _)
    rw [hub, if_pos rfl]

example := (C26_lookup_previous_partial [(1 : Int), 2, 2, 4] (by unfold Ascending; decide) [false, false, false, false]
  [10, 20, 30, 40] rfl (-1) 3).1 2 2 false 30 rfl (by decide)
  (by rintro (_ | _ | _ | _ | j) b h1 h2 <;> simp at h1 h2; omega) rfl rfl

/-- A NaN coordinate is mapped to the last value. -/
theorem C26_lookup_nan : lookupPrevious [(1 : Int), 2] [false, false] [10, 20] (-1) none = .ok 20 := by decide

example : mapFunction (fun _ => false) (fun _ _ => 0) [(0 : Int), 2, 5] [false, true] [10, 20] (-1) (some 1) = .ok 10 ∧
    mapFunction (fun _ => false) (fun _ _ => 0) [(0 : Int), 2, 5] [false, true] [10, 20] (-1) (some 2) = .ok (-1) ∧
    mapFunction (fun _ => false) (fun _ _ => 0) [(0 : Int), 2, 5] [false, false] [10, 20] (-1) (some 2) = .ok 20 ∧
    mapFunction (fun _ => false) (fun _ _ => 0) [(0 : Int), 2, 5] [false, false] [10, 20] (-1) (some 5) = .ok (-1) := by
  decide

example : scaleEvent (fun _ => false) (fun _ _ => 0) [(0 : Int), 2, 5] [false, false] [10, (20 : Int)] (some 2) 3 = .ok 60 ∧
    scaleEvent (fun _ => false) (fun _ _ => 0) [(0 : Int), 2, 5] [false, false] [10, (20 : Int)] none 3 = .ok 0 := by decide

example : lookupPrevious [(1 : Int), 2, 2, 4] [false, false, false, false] [10, 20, 30, 40] (-1) (some 2) = .ok 30 ∧
    lookupPrevious [(1 : Int), 2] [false, false] [10, 20] (-1) (some 0) = .ok (-1) := by decide

end Scipp.Props
