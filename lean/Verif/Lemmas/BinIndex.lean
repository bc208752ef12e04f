import Verif.Spec.BinIndex
import Verif.Lemmas.SubbinSizes
import Mathlib.Data.List.Basic
import Mathlib.Order.Basic
namespace Scipp
open Spec
variable {α : Type} [LinearOrder α]

theorem Ascending.le {edges : List α} (h : Ascending edges) {i j : Nat} {a b : α} (hij : i ≤ j)
    (ha : edges[i]? = some a) (hb : edges[j]? = some b) : a ≤ b := by
  obtain ⟨hi, rfl⟩ := List.getElem?_eq_some_iff.mp ha
  obtain ⟨hj, rfl⟩ := List.getElem?_eq_some_iff.mp hb
  rcases Nat.lt_or_eq_of_le hij with h1 | rfl
  · exact List.pairwise_iff_getElem.mp h i j hi hj h1
  · exact le_refl _

theorem InBin.unique {edges : List α} (h : Ascending edges) {i j : Nat} {x : Option α} (hi : InBin edges i x)
    (hj : InBin edges j x) : i = j := by
  have key : ∀ {i j : Nat}, InBin edges i x → InBin edges j x → ¬ i < j := by
    rintro i j ⟨v, lo, hi, rfl, _, h2, _, h4⟩ ⟨v', lo', hi', e, h1', _, h3', _⟩ hlt
    cases e
    have := Ascending.le h (show i + 1 ≤ j by omega) h2 h1'
    exact absurd (lt_of_lt_of_le h4 (le_trans this h3')) (lt_irrefl _)
  rcases lt_trichotomy i j with h1 | h1 | h1
  · exact absurd h1 (key hi hj)
  · exact h1
  · exact absurd h1 (key hj hi)

theorem IsBinOf.unique {edges : List α} (h : Ascending edges) {x : Option α} {b c : Int} (hb : IsBinOf edges x b)
    (hc : IsBinOf edges x c) : b = c := by
  rcases hb with ⟨i, rfl, hi⟩ | ⟨rfl, hn⟩ <;> rcases hc with ⟨j, rfl, hj⟩ | ⟨rfl, hm⟩
  · rw [InBin.unique h hi hj]
  · exact absurd hi (hm i)
  · exact absurd hj (hn j)
  · rfl

/-- `upper_bound` on sorted edges. -/
theorem upperBound_spec {edges : List α} (v : α) :
    (∀ i a, i < upperBound edges (some v) → edges[i]? = some a → a ≤ v) ∧
    (∀ a, edges[upperBound edges (some v)]? = some a → v < a) ∧ upperBound edges (some v) ≤ edges.length := by
  induction edges with
  | nil => simp [upperBound]
  | cons e edges ih =>
    by_cases h : v < e
    · simp [upperBound, nanLt, h]
    · have hu : upperBound (e :: edges) (some v) = upperBound edges (some v) + 1 := by
        simp [upperBound, nanLt, h]
      rw [hu]
      refine ⟨?_, ?_, ?_⟩
      · intro i a hi ha
        cases i with
        | zero => simp at ha; subst ha; exact not_lt.mp h
        | succ i => exact ih.1 i a (by omega) (by simpa using ha)
      · intro a ha; exact ih.2.1 a (by simpa using ha)
      · simp only [List.length_cons]; have := ih.2.2; omega

theorem upperBound_nan (edges : List α) : upperBound edges none = edges.length := by
  induction edges with
  | nil => rfl
  | cons e edges ih => simp only [upperBound, nanLt, Bool.not_false, List.takeWhile_cons, if_true, List.length_cons] at ih ⊢; rw [ih]

theorem updateBinSorted_spec {edges : List α} (h : Ascending edges) (x : Option α) :
    IsBinOf edges x (updateBinSorted edges x 0) := by
  have e0 : ∀ it : Nat, (0 : Int) * ((edges.length : Int) - 1) + ((it : Int) - 1) = (it : Int) - 1 := by intro it; omega
  simp only [updateBinSorted, e0, (by decide : ¬ ((0 : Int) = -1)), if_false]
  cases x with
  | none =>
    rw [upperBound_nan, if_pos (Or.inr rfl)]
    refine Or.inr ⟨rfl, ?_⟩
    rintro i ⟨v, lo, hi, e, _⟩
    cases e
  | some v =>
    obtain ⟨h1, h2, h3⟩ := @upperBound_spec α _ edges v
    by_cases hz : upperBound edges (some v) = 0 ∨ upperBound edges (some v) = edges.length
    · rw [if_pos hz]
      refine Or.inr ⟨rfl, ?_⟩
      rintro i ⟨v', lo, hi, e, g1, g2, g3, g4⟩
      cases e
      rcases hz with hz | hz
      · rw [hz] at h2
        obtain ⟨a, ha⟩ : ∃ a, edges[0]? = some a := by
          obtain ⟨hi', _⟩ := List.getElem?_eq_some_iff.mp g1
          exact ⟨_, List.getElem?_eq_getElem (by omega)⟩
        have := Ascending.le h (Nat.zero_le i) ha g1
        exact absurd (lt_of_lt_of_le (h2 a ha) (le_trans this g3)) (lt_irrefl _)
      · obtain ⟨hi', _⟩ := List.getElem?_eq_some_iff.mp g2
        have := h1 (i + 1) hi (by omega) g2
        exact absurd (lt_of_lt_of_le g4 this) (lt_irrefl _)
    · rw [if_neg hz]
      push Not at hz
      obtain ⟨n, hn⟩ : ∃ n, upperBound edges (some v) = n + 1 := ⟨_, (Nat.succ_pred_eq_of_pos (by omega)).symm⟩
      refine Or.inl ⟨n, by omega, ?_⟩
      rw [hn] at h1 h2 h3 hz
      have g1 : n < edges.length := by omega
      have g2 : n + 1 < edges.length := by omega
      exact ⟨v, edges[n], edges[n + 1], rfl, List.getElem?_eq_getElem g1, List.getElem?_eq_getElem g2,
        h1 n _ (by omega) (List.getElem?_eq_getElem g1), h2 _ (List.getElem?_eq_getElem g2)⟩

theorem getBin_spec {edges : List α} (h : Ascending edges) (hne : edges ≠ []) (guess : α → Int) (x : Option α)
    (hg : ∀ v i, x = some v → InBin edges i x → (i : Int) - 1 ≤ guess v ∧ guess v ≤ i + 1) :
    ∃ b, getBin x edges guess = .ok b ∧ IsBinOf edges x b := by
  have hl : 0 < edges.length := List.length_pos_iff.mpr hne
  have hhead : edges.head? = some edges[0] := by rw [List.head?_eq_getElem?, List.getElem?_eq_getElem hl]
  have hlast : edges.getLast? = some (edges[edges.length - 1]'(by omega)) := by
    rw [List.getLast?_eq_getElem?, List.getElem?_eq_getElem]
  cases x with
  | none =>
    refine ⟨-1, ?_, Or.inr ⟨rfl, ?_⟩⟩
    · simp only [getBin, hhead, hlast, nanLt, nanGe, Bool.or_self, Bool.false_eq_true, if_false]
    · rintro i ⟨v, lo, hi, e, _⟩
      cases e
  | some v =>
    by_cases hout : v < edges[0] ∨ edges[edges.length - 1]'(by omega) ≤ v
    · refine ⟨-1, ?_, Or.inr ⟨rfl, ?_⟩⟩
      · have : (nanLt (some v) edges[0] || nanGe (some v) (edges[edges.length - 1]'(by omega))) = true := by
          simpa [nanLt, nanGe] using hout
        simp only [getBin, hhead, hlast, this, if_true]
      · rintro i ⟨v', lo, hi, e, g1, g2, g3, g4⟩
        cases e
        obtain ⟨hi', _⟩ := List.getElem?_eq_some_iff.mp g2
        rcases hout with ho | ho
        · have := Ascending.le h (Nat.zero_le i) (List.getElem?_eq_getElem hl) g1
          exact absurd (lt_of_lt_of_le ho (le_trans this g3)) (lt_irrefl _)
        · have := Ascending.le h (show i + 1 ≤ edges.length - 1 by omega) g2 (List.getElem?_eq_getElem (by omega))
          exact absurd (lt_of_lt_of_le g4 (le_trans this ho)) (lt_irrefl _)
    · have hbool : (nanLt (some v) edges[0] || nanGe (some v) (edges[edges.length - 1]'(by omega))) = false := by
        push Not at hout
        simpa [nanLt, nanGe] using hout
      push Not at hout
      -- the bin containing `v`
      obtain ⟨i, hbin⟩ : ∃ i, InBin edges i (some v) := by
        rcases updateBinSorted_spec h (some v) with ⟨i, _, hi⟩ | ⟨hm, hno⟩
        · exact ⟨i, hi⟩
        · exfalso
          obtain ⟨h1, h2, h3⟩ := @upperBound_spec α _ edges v
          have hu0 : upperBound edges (some v) ≠ 0 := by
            intro h0
            rw [h0] at h2
            exact absurd (lt_of_lt_of_le (h2 _ (List.getElem?_eq_getElem hl)) hout.1) (lt_irrefl _)
          have hul : upperBound edges (some v) ≠ edges.length := by
            intro h0
            have := h1 (edges.length - 1) _ (by omega) (List.getElem?_eq_getElem (by omega))
            exact absurd (lt_of_lt_of_le hout.2 this) (lt_irrefl _)
          simp only [updateBinSorted, (by decide : ¬ ((0 : Int) = -1)), if_false, hu0, hul, or_self] at hm
          omega
      obtain ⟨hg1, hg2⟩ := hg v i rfl hbin
      obtain ⟨v', lo, hi, e, g1, g2, g3, g4⟩ := hbin
      cases e
      obtain ⟨hi1, _⟩ := List.getElem?_eq_some_iff.mp g2
      obtain ⟨n, hn⟩ : ∃ n : Nat, (n : Int) = max 0 (min (guess v) ((edges.length : Int) - 1 - 1)) :=
        ⟨(max 0 (min (guess v) ((edges.length : Int) - 1 - 1))).toNat, by omega⟩
      have hn1 : n + 1 < edges.length := by omega
      have hn2 : (n : Int) + 1 = ((n + 1 : Nat) : Int) := by omega
      refine ⟨i, ?_, Or.inl ⟨i, rfl, ⟨v, lo, hi, rfl, g1, g2, g3, g4⟩⟩⟩
      simp only [getBin, hhead, hlast, hbool, Bool.false_eq_true, if_false, ← hn]
      rw [hn2, SubbinSizes.vecGet_nat, SubbinSizes.vecGet_nat, List.getElem?_eq_getElem (show n < edges.length by omega),
        List.getElem?_eq_getElem hn1]
      simp only
      have hcase : n = i ∨ n = i + 1 ∨ n + 1 = i := by omega
      rcases hcase with rfl | rfl | hni
      · rw [List.getElem?_eq_getElem (by omega)] at g1 g2
        have e1 := Option.some.inj g1
        have e2 := Option.some.inj g2
        rw [e1, e2, if_neg (not_lt.mpr g3), if_neg (not_le.mpr g4)]
      · rw [List.getElem?_eq_getElem (by omega)] at g2
        have e2 := Option.some.inj g2
        rw [e2, if_pos g4]
        congr 1; omega
      · subst hni
        rw [List.getElem?_eq_getElem (by omega)] at g1
        have e1 := Option.some.inj g1
        have hlow : edges[n] ≤ v := le_trans (Ascending.le h (show n ≤ n + 1 by omega)
          (List.getElem?_eq_getElem (by omega)) (List.getElem?_eq_getElem hn1)) (e1 ▸ g3)
        rw [if_neg (not_lt.mpr hlow), e1, if_pos g3]

theorem mul_add_sorted (edges : List α) (x : Option α) (index : Int) (hi : index ≠ -1) :
    updateBinSorted edges x index = if updateBinSorted edges x 0 = -1 then -1
      else index * ((edges.length : Int) - 1) + updateBinSorted edges x 0 := by
  have e0 : ∀ it : Nat, (0 : Int) * ((edges.length : Int) - 1) + ((it : Int) - 1) = (it : Int) - 1 := by intro it; omega
  simp only [updateBinSorted, hi, e0, (by decide : ¬ ((0 : Int) = -1)), if_false]
  by_cases hz : upperBound edges x = 0 ∨ upperBound edges x = edges.length
  · simp [hz]
  · rw [if_neg hz, if_neg hz, if_neg (by omega)]

end Scipp
