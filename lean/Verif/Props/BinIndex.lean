import Verif.Lemmas.BinIndex
import Mathlib.Data.Rat.Floor
import Mathlib.Algebra.Order.Field.Basic
import Mathlib.Tactic.Linarith
import Mathlib.Tactic.FieldSimp
/-!
Property C18: every value is assigned to the bin that contains it. The vocabulary (`InBin`, `Ascending`) is in
`Verif/Spec/BinIndex.lean`.
-/
namespace Scipp.Props
open Scipp Spec
variable {α : Type} [LinearOrder α]

/-- **C18** (search over sorted edges): a value is assigned to bin `i` exactly if `edges[i] ≤ x < edges[i+1]`, and to no bin
(`-1`) exactly if no bin contains it. -/
theorem C18_sorted_edges (edges : List α) (h : Ascending edges) (x : Option α) :
    (∀ i : Nat, updateBinSorted edges x 0 = i ↔ InBin edges i x) ∧
    (updateBinSorted edges x 0 = -1 ↔ ∀ i, ¬ InBin edges i x) := by
  have hs := updateBinSorted_spec h x
  refine ⟨?_, ?_⟩
  · intro i
    refine ⟨?_, fun hi => IsBinOf.unique h hs (Or.inl ⟨i, rfl, hi⟩)⟩
    intro e
    rcases hs with ⟨j, hj, hb⟩ | ⟨hm, _⟩
    · have : i = j := by omega
      exact this ▸ hb
    · omega
  · refine ⟨?_, fun hn => IsBinOf.unique h hs (Or.inr ⟨rfl, hn⟩)⟩
    intro e
    rcases hs with ⟨j, hj, _⟩ | ⟨_, hn⟩
    · omega
    · exact hn

/-- Edges with a bin of width zero. -/
example := C18_sorted_edges [(0 : Int), 1, 1, 4] (by unfold Ascending; decide) (some 1)

/-- **C18** (no bin = outside): with at least one edge, a value is in no bin exactly if it is NaN, less than the first edge, or
not less than the last edge. -/
theorem C18_outside (edges : List α) (h : Ascending edges) (front back : α) (hf : edges.head? = some front)
    (hb : edges.getLast? = some back) (x : Option α) :
    updateBinSorted edges x 0 = -1 ↔ x = none ∨ ∃ v, x = some v ∧ (v < front ∨ back ≤ v) := by
  have hl : 0 < edges.length := by
    cases edges with
    | nil => simp at hf
    | cons => simp
  have hf' : edges[0]? = some front := by rw [← hf, List.head?_eq_getElem?]
  have hb' : edges[edges.length - 1]? = some back := by rw [← hb, List.getLast?_eq_getElem?]
  rw [(C18_sorted_edges edges h x).2]
  constructor
  · intro hn
    cases x with
    | none => exact Or.inl rfl
    | some v =>
      refine Or.inr ⟨v, rfl, ?_⟩
      by_contra hc
      push Not at hc
      have h0 := ((C18_sorted_edges edges h (some v)).2).mpr hn
      obtain ⟨h1, h2, h3⟩ := @upperBound_spec α _ edges v
      have hu0 : upperBound edges (some v) ≠ 0 := by
        intro e
        rw [e] at h2
        exact absurd (lt_of_lt_of_le (h2 _ hf') hc.1) (lt_irrefl _)
      have hul : upperBound edges (some v) ≠ edges.length := by
        intro e
        have := h1 (edges.length - 1) _ (by omega) hb'
        exact absurd (lt_of_lt_of_le hc.2 this) (lt_irrefl _)
      simp only [updateBinSorted, (by decide : ¬ ((0 : Int) = -1)), if_false, hu0, hul, or_self] at h0
      omega
  · rintro (rfl | ⟨v, rfl, hv⟩) i ⟨v', lo, hi, e, g1, g2, g3, g4⟩
    · cases e
    · cases e
      obtain ⟨hi', _⟩ := List.getElem?_eq_some_iff.mp g2
      rcases hv with hv | hv
      · exact absurd (lt_of_lt_of_le hv (le_trans (Ascending.le h (Nat.zero_le i) hf' g1) g3)) (lt_irrefl _)
      · have := Ascending.le h (show i + 1 ≤ edges.length - 1 by omega) g2 hb'
        exact absurd (lt_of_lt_of_le g4 (le_trans this hv)) (lt_irrefl _)

example := C18_outside [(0 : Int), 1, 1, 4] (by unfold Ascending; decide) 0 4 rfl rfl (some 4)

/-- **C18** (fast path): for sorted edges (at least one), if the arithmetic guess is at most one bin off for the value at hand,
`get_bin` accesses no element outside `edges` and agrees with the search, for every index accumulated so far. -/
theorem C18_linspace (edges : List α) (h : Ascending edges) (hne : edges ≠ []) (guess : α → Int) (x : Option α)
    (hg : ∀ v i, x = some v → InBin edges i x → (i : Int) - 1 ≤ guess v ∧ guess v ≤ i + 1) (index : Int) :
    getBin x edges guess = .ok (updateBinSorted edges x 0) ∧
    updateBinLinspace edges guess x index = .ok (updateBinSorted edges x index) := by
  obtain ⟨b, hb, hs⟩ := getBin_spec h hne guess x hg
  have e := IsBinOf.unique h hs (updateBinSorted_spec h x)
  refine ⟨by rw [hb, e], ?_⟩
  by_cases hi : index = -1
  · simp [updateBinLinspace, updateBinSorted, hi]
  · rw [mul_add_sorted edges x index hi, ← e]
    simp only [updateBinLinspace, if_neg hi, hb, bind, Except.bind, nbinOf, pure, Except.pure]
    rcases hs with ⟨j, rfl, _⟩ | ⟨rfl, _⟩
    · rw [if_neg (by omega), if_neg (by omega)]
    · rfl

/-- A guess that is one too large. -/
example := C18_linspace [(0 : Int), 1, 2, 3] (by unfold Ascending; decide) (by decide) (fun _ => 2) (some 1)
  (by
    rintro v i h ⟨v', lo, hi, e, h1, h2, h3, h4⟩
    cases h; cases e
    rcases i with _ | _ | _ | i
    · simp at h1 h2; omega
    · simp
    · simp at h1 h2; omega
    · simp at h1 h2)

/-- A guess two bins off gives a wrong answer: `get_bin` corrects by at most one. -/
theorem C18_two_off_wrong : getBin (some (0 : Int)) [0, 1, 2, 3] (fun _ => 2) = .ok 1 := by decide

/-- The conversion of `(x - offset) * scale` to an integer (`histogram.h` 41, `scale` from line 19) in exact arithmetic, truncating
as C++ does. -/
def exactGuess (edges : List ℚ) (v : ℚ) : Int :=
  let q := (v - edges.headD 0) * (((edges.length : ℚ) - 1) / (edges.getLastD 0 - edges.headD 0))
  q.num.tdiv q.den

theorem tdiv_eq_floor {q : ℚ} (h : 0 ≤ q) : q.num.tdiv q.den = ⌊q⌋ := by
  rw [Int.tdiv_eq_ediv_of_nonneg (Rat.num_nonneg.mpr h), Rat.floor_def']

/-- **C18** (the hypothesis of `C18_linspace` is met): for equidistant edges and exact arithmetic the guess is the bin itself, so that
any rounding of the guess by less than one bin is tolerated. -/
theorem C18_exact_guess (a w : ℚ) (hw : 0 < w) (n : Nat) (v : ℚ) (i : Nat)
    (hb : InBin ((List.range (n + 2)).map fun j : Nat => a + j * w) i (some v)) :
    exactGuess ((List.range (n + 2)).map fun j : Nat => a + j * w) v = i := by
  obtain ⟨v', lo, hi, e, g1, g2, g3, g4⟩ := hb
  cases e
  obtain ⟨hi', _⟩ := List.getElem?_eq_some_iff.mp g2
  simp only [List.length_map, List.length_range] at hi'
  rw [List.getElem?_map, List.getElem?_range (by omega)] at g1 g2
  simp only [Option.map_some, Option.some.injEq] at g1 g2
  have hhead : ((List.range (n + 2)).map fun j : Nat => a + j * w).headD 0 = a := by
    rw [List.headD_eq_head?_getD, List.head?_eq_getElem?, List.getElem?_map, List.getElem?_range (by omega)]
    simp
  have hlast : ((List.range (n + 2)).map fun j : Nat => a + j * w).getLastD 0 = a + (n + 1) * w := by
    rw [List.getLastD_eq_getLast?, List.getLast?_eq_getElem?, List.getElem?_map]
    simp
  have hq : (v - a) * ((((n + 2 : Nat) : ℚ) - 1) / (a + (n + 1) * w - a)) = (v - a) / w := by
    have h1 : ((n : ℚ) + 1) ≠ 0 := by positivity
    push_cast
    field_simp
    ring
  simp only [exactGuess, hhead, hlast, List.length_map, List.length_range, hq]
  subst g1
  subst g2
  push_cast at g4
  have hnn : (0 : ℚ) ≤ (v - a) / w := by
    apply div_nonneg _ hw.le
    have : (0 : ℚ) ≤ i * w := by positivity
    linarith
  rw [tdiv_eq_floor hnn, Int.floor_eq_iff]
  constructor
  · rw [le_div_iff₀ hw]; push_cast; linarith
  · rw [div_lt_iff₀ hw]; push_cast; linarith

/-- Edges 0, 1/2, 1, 3/2. -/
example := C18_exact_guess 0 (1 / 2) (by norm_num) 2 (5 / 4) 2 ⟨5 / 4, 1, 3 / 2, rfl, by norm_num, by norm_num, by norm_num, by norm_num⟩

/-- Non-trivial instances: repeated edges, values on an edge, NaN. -/
example : Ascending [0, 1, 1, 4] ∧ updateBinSorted [0, 1, 1, 4] (some (1 : Int)) 0 = 2 ∧
    updateBinSorted [0, 1, 1, 4] (some (4 : Int)) 0 = -1 ∧ updateBinSorted [0, 1, 1, 4] (none : Option Int) 0 = -1 := by
  refine ⟨by unfold Ascending; decide, by decide, by decide, by decide⟩

example : ∃ x : Option Int, Ascending [0, 1, 2, 3] ∧ InBin [0, 1, 2, 3] 1 x ∧
    getBin x [0, 1, 2, 3] (fun _ => 2) = .ok 1 := by
  refine ⟨some 1, by unfold Ascending; decide, ⟨1, 1, 2, rfl, rfl, rfl, by decide, by decide⟩, by decide⟩

example : exactGuess [0, 1 / 2, 1, 3 / 2] (5 / 4) = 2 := by decide +kernel

end Scipp.Props
