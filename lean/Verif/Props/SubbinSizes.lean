import Verif.Lemmas.SubbinSizes
/-!
Property C17: lists of sub-bin sizes behave like functions with finite support. `val s p` is the size at
position `p` and zero where nothing is stored (`Verif/Spec/SubbinSizes.lean`). Offsets are non-negative, as
established by the constructor.
-/
namespace Scipp.Props
open Scipp SubbinSizes

/-- **C17** (`operator+`, `operator+=`): both succeed, never access an element outside a vector and give
at every position the sum of the sizes. -/
theorem C17_add (a b : SubbinSizes) (ha : 0 ≤ a.offset) (hb : 0 ≤ b.offset) :
    (∃ r, add a b = .ok r ∧ 0 ≤ r.offset ∧ ∀ p, r.val p = a.val p + b.val p) ∧
    (∃ r, addAssign a b = .ok r ∧ 0 ≤ r.offset ∧ ∀ p, r.val p = a.val p + b.val p) := by
  obtain ⟨r, h1, h2, _, h3⟩ := binary_ok (· + ·) (by simp) a b ha hb
  obtain ⟨r', h1', h2', _, h3'⟩ := addAssign_ok a b ha hb
  exact ⟨⟨r, h1, by omega, h3⟩, ⟨r', h1', by omega, h3'⟩⟩

example := C17_add ⟨3, [1, 2]⟩ ⟨1, [10]⟩ (by decide) (by decide)

/-- **C17** (`operator-`, `operator-=`). -/
theorem C17_sub (a b : SubbinSizes) (ha : 0 ≤ a.offset) (hb : 0 ≤ b.offset) :
    ∃ r, sub a b = .ok r ∧ 0 ≤ r.offset ∧ ∀ p, r.val p = a.val p - b.val p := by
  obtain ⟨r, h1, h2, _, h3⟩ := binary_ok (· - ·) (by simp) a b ha hb
  exact ⟨r, h1, by omega, h3⟩

example := C17_sub ⟨1, [10, 1]⟩ ⟨2, [1, 2]⟩ (by decide) (by decide)

/-- **C17** (`add_intersection`): the stored range stays, and within it the sizes of `b` are added. -/
theorem C17_add_intersection (a b : SubbinSizes) :
    ∃ r, addIntersection a b = .ok r ∧ r.offset = a.offset ∧ r.sizes.length = a.sizes.length ∧
      ∀ p, r.val p = a.val p + if a.offset ≤ p ∧ p < a.offset + a.sizes.length then b.val p else 0 := by
  obtain ⟨r, h1, h2, h3, h4⟩ := addIntersection_ok a b
  refine ⟨r, h1, h2, by simp only [stop] at h3; omega, ?_⟩
  intro p
  by_cases h : a.offset ≤ p ∧ p < a.offset + a.sizes.length
  · rw [if_pos h, h4 p h.1 h.2]
  · rw [if_neg h]
    have : p < a.offset ∨ a.stop ≤ p := by simp only [stop]; omega
    rw [val_out a p this, val_out r p (by rw [h2, h3]; exact this)]; rfl

example := C17_add_intersection ⟨2, [1, 1, 1]⟩ ⟨0, [5, 6, 7, 8]⟩

/-- **C17** (`sum`): the total of the sizes at the stored positions. -/
theorem C17_sum (s : SubbinSizes) : s.sum = total s.val s.offset s.sizes.length := by
  rw [total_val s _ (le_refl _), List.take_length, SubbinSizes.sum, foldl_add]; ring

example : total (⟨3, [1, 2, 4]⟩ : SubbinSizes).val 3 3 = 7 := (C17_sum ⟨3, [1, 2, 4]⟩).symm.trans (by decide)

/-- **C17** (`cumsum_exclusive`): the stored range stays, and the element at position `p` is the total of the sizes
at positions before `p`. -/
theorem C17_cumsum_exclusive (s : SubbinSizes) (hs : 0 ≤ s.offset) :
    ∃ r, cumsumExclusive s = .ok r ∧ r.offset = s.offset ∧ r.sizes.length = s.sizes.length ∧
      ∀ n : Nat, n < s.sizes.length → r.val (s.offset + n) = total s.val s.offset n := by
  refine ⟨⟨s.offset, cumsumLoop 0 s.sizes⟩, ?_, rfl, cumsumLoop_length _ _, ?_⟩
  · simp only [cumsumExclusive, mk']
    rw [if_neg (by omega)]
  · intro n hn
    rw [total_val s n (by omega)]
    simp only [val]
    rw [if_pos (by omega)]
    have : (s.offset + (n : Int) - s.offset).toNat = n := by omega
    rw [this, cumsumLoop_getD _ _ _ hn]; ring

example := C17_cumsum_exclusive ⟨2, [1, 2, 3]⟩ (by decide)

/-- **C17** (`exclusive_scan`): if the argument does not begin before the accumulant, no element outside a vector
is accessed although the accumulant is overwritten while it is read, the argument is replaced by the accumulant's
sizes, and the accumulant by the sum, both trimmed to the range of the argument. Partial: the claim is for all offsets, which is false, see
`C17_exclusive_scan_negative_index`. -/
theorem C17_exclusive_scan_partial (s x : SubbinSizes) (h : s.offset ≤ x.offset) :
    ∃ s' x', exclusiveScan s x = .ok (s', x') ∧
      (s'.offset = x.offset ∧ s'.sizes.length = x.sizes.length) ∧
      (x'.offset = x.offset ∧ x'.sizes.length = x.sizes.length) ∧
      ∀ p, x.offset ≤ p → p < x.offset + x.sizes.length → x'.val p = s.val p ∧ s'.val p = s.val p + x.val p := by
  obtain ⟨s', x', h1, h2, h3, h4, h5, h6⟩ := exclusiveScan_ok s x h
  simp only [stop] at h3 h5 h6
  exact ⟨s', x', h1, ⟨h2, by omega⟩, ⟨h4, by omega⟩, h6⟩

example := C17_exclusive_scan_partial ⟨1, [1, 2, 3]⟩ ⟨2, [10, 20, 30, 40]⟩ (by decide)

/-- Without the hypothesis on the offsets, elements before the begin of a vector are read. -/
theorem C17_exclusive_scan_negative_index : exclusiveScan ⟨1, [5]⟩ ⟨0, [7]⟩ = .error .ub := by decide

/-- **C17** (scan over several lists, as used by `bin`): if neither begin nor end of the stored ranges decrease from one
element to the next, as for sorted bin edges, the `i`-th output holds at every position of its range the sum of the sizes of
all previous elements at this position. Partial: without the hypothesis the claim is false, see
`C17_scan_list_loses_trimmed`. -/
theorem C17_scan_list_partial (xs : List SubbinSizes)
    (h : xs.Pairwise fun a b => a.offset ≤ b.offset ∧ a.offset + (a.sizes.length : Int) ≤ b.offset + b.sizes.length) :
    ∃ ys, cumsumExclusiveList xs = .ok ys ∧ ys.length = xs.length ∧
      ∀ i (hi : i < xs.length), ∃ y, ys[i]? = some y ∧ y.offset = xs[i].offset ∧
        y.sizes.length = xs[i].sizes.length ∧
        ∀ p, xs[i].offset ≤ p → p < xs[i].offset + xs[i].sizes.length →
          y.val p = ((xs.take i).map fun x => x.val p).sum := by
  cases xs with
  | nil => exact ⟨[], rfl, rfl, by intro i hi; simp at hi⟩
  | cons x xs =>
    have hx : (x.assign 0).stop = x.stop := by simp [stop, assign]
    obtain ⟨ys, h1, h2, h3⟩ := scanList_ok (x :: xs) (x.assign 0) (by
      intro y hy
      rw [hx]
      simp only [List.mem_cons] at hy
      rcases hy with rfl | hy
      · exact ⟨le_refl _, le_refl _⟩
      · exact (List.pairwise_cons.mp h).1 y hy) h
    refine ⟨ys, h1, h2, ?_⟩
    intro i hi
    obtain ⟨y, h4, h5, h6, h7⟩ := h3 i hi
    refine ⟨y, h4, h5, by simp only [stop] at h6; omega, ?_⟩
    intro p hp1 hp2
    rw [h7 p hp1 hp2, val_assign_zero]; ring

example := C17_scan_list_partial [⟨0, [1, 2]⟩, ⟨1, [3, 4]⟩, ⟨1, [5, 6]⟩] (by decide)

/-- If a later element is stored beyond the end of an element in between, what was accumulated there is lost: the third
output should hold `4` at position `1`. -/
theorem C17_scan_list_loses_trimmed : cumsumExclusiveList [⟨0, [3, 4]⟩, ⟨0, [1]⟩, ⟨0, [1, 1]⟩] =
    .ok [⟨0, [0, 0]⟩, ⟨0, [3]⟩, ⟨0, [4, 0]⟩] := by decide

example : add ⟨3, [1, 2]⟩ ⟨1, [10]⟩ = .ok ⟨1, [10, 0, 1, 2]⟩ := by decide
example : addAssign ⟨1, [10]⟩ ⟨3, [1, 2]⟩ = .ok ⟨1, [10, 0, 1, 2]⟩ := by decide
example : sub ⟨1, [10, 1]⟩ ⟨2, [1, 2]⟩ = .ok ⟨1, [10, 0, -2]⟩ := by decide
example : addIntersection ⟨2, [1, 1, 1]⟩ ⟨0, [5, 6, 7, 8]⟩ = .ok ⟨2, [8, 9, 1]⟩ := by decide
example : cumsumExclusive ⟨2, [1, 2, 3]⟩ = .ok ⟨2, [0, 1, 3]⟩ := by decide
example : exclusiveScan ⟨1, [1, 2, 3]⟩ ⟨2, [10, 20, 30, 40]⟩ = .ok (⟨2, [12, 23, 30, 40]⟩, ⟨2, [2, 3, 0, 0]⟩) := by decide
/-- A case meeting the hypothesis of `C17_scan_list_partial`. -/
example : [(⟨0, [1, 2]⟩ : SubbinSizes), ⟨1, [3, 4]⟩, ⟨1, [5, 6]⟩].Pairwise
    (fun a b => a.offset ≤ b.offset ∧ a.offset + (a.sizes.length : Int) ≤ b.offset + b.sizes.length) ∧
    cumsumExclusiveList [⟨0, [1, 2]⟩, ⟨1, [3, 4]⟩, ⟨1, [5, 6]⟩] =
      .ok [⟨0, [0, 0]⟩, ⟨1, [2, 0]⟩, ⟨1, [5, 4]⟩] := by decide

end Scipp.Props
