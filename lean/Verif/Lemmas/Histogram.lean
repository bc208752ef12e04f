import Verif.Model.Histogram
import Verif.Spec.Histogram
import Verif.Lemmas.BinIndex
import Verif.Lemmas.SubbinSizes
import Mathlib.Algebra.BigOperators.Group.List.Lemmas
namespace Scipp
open Spec SubbinSizes
variable {α : Type} [LinearOrder α] {W : Type} [AddCommMonoid W]

theorem isSorted_iff : ∀ l : List α, isSorted l = true ↔ Ascending l
  | [] => by simp [isSorted, Ascending]
  | [a] => by simp [isSorted, Ascending]
  | a :: b :: rest => by
    have ih := isSorted_iff (b :: rest)
    simp only [isSorted, Bool.and_eq_true, decide_eq_true_eq, ih, Ascending, List.pairwise_cons]
    constructor
    · rintro ⟨h1, h2, h3⟩
      refine ⟨?_, h2, h3⟩
      intro c hc
      rcases List.mem_cons.mp hc with rfl | hc
      · exact h1
      · exact le_trans h1 (h2 c hc)
    · rintro ⟨h1, h2, h3⟩
      exact ⟨h1 b (by simp), h2, h3⟩

/-- Add the weight of an event to its bin. -/
def histStep (edges : List α) (data : List W) (e : Option α × W) : List W :=
  if updateBinSorted edges e.1 0 < 0 then data
  else data.modify (updateBinSorted edges e.1 0).toNat (· + e.2)

def histPure (edges : List α) (events : List (Option α × W)) (data : List W) : List W :=
  events.foldl (histStep edges) data

theorem histStep_length (edges : List α) (data : List W) (e) : (histStep edges data e).length = data.length := by
  unfold histStep; split <;> simp

theorem histPure_length (edges : List α) (events : List (Option α × W)) (data : List W) :
    (histPure edges events data).length = data.length := by
  induction events generalizing data with
  | nil => rfl
  | cons e events ih =>
    show (histPure edges events (histStep edges data e)).length = _
    rw [ih, histStep_length]

theorem updateBinSorted_range {edges : List α} (h : Ascending edges) (x : Option α) :
    updateBinSorted edges x 0 = -1 ∨ 0 ≤ updateBinSorted edges x 0 ∧
      updateBinSorted edges x 0 < (edges.length - 1 : Nat) := by
  rcases updateBinSorted_spec h x with ⟨i, hi, _, _, _, _, _, h2, _⟩ | ⟨h, _⟩
  · obtain ⟨hl, _⟩ := List.getElem?_eq_some_iff.mp h2
    right; omega
  · exact Or.inl h

theorem iadd_ok (data : List W) (b : Int) (w : W) (h0 : 0 ≤ b) (h1 : b < data.length) :
    iadd data b w = .ok (data.modify b.toNat (· + w)) := by
  obtain ⟨n, rfl⟩ : ∃ n : Nat, b = n := ⟨b.toNat, by omega⟩
  have hn : n < data.length := by omega
  simp only [iadd, vecGet_nat, List.getElem?_eq_getElem hn, vecSet_nat hn, Int.toNat_natCast]
  congr 1
  rw [List.modify_eq_set_getElem?, List.getElem?_eq_getElem hn]
  rfl

theorem histLinLoop_ok {edges : List α} (h : Ascending edges) (hne : edges ≠ []) (guess : α → Int)
    (hg : GuessOk edges guess) (events : List (Option α × W)) (data : List W) (hd : data.length = edges.length - 1) :
    histLinLoop edges guess events data = .ok (histPure edges events data) := by
  induction events generalizing data with
  | nil => rfl
  | cons e events ih =>
    obtain ⟨x, w⟩ := e
    obtain ⟨b, hb, hs⟩ := getBin_spec h hne guess x (by
      intro v i hx hi; subst hx; exact hg v i hi)
    have eb := IsBinOf.unique h hs (updateBinSorted_spec h x)
    have hr := updateBinSorted_range h x
    have hstep : histPure edges ((x, w) :: events) data = histPure edges events (histStep edges data (x, w)) := rfl
    rw [hstep]
    simp only [histLinLoop, hb]
    by_cases hb0 : b ≥ 0
    · rw [if_pos hb0, iadd_ok data b w hb0 (by omega)]
      have e1 : histStep edges data (x, w) = data.modify b.toNat (· + w) := by
        simp only [histStep, ← eb]; rw [if_neg (by omega)]
      rw [e1]
      exact ih _ (by simpa using hd)
    · rw [if_neg hb0]
      have e1 : histStep edges data (x, w) = data := by
        simp only [histStep, ← eb]; rw [if_pos (by omega)]
      rw [e1]
      exact ih _ hd

theorem histSortedLoop_ok {edges : List α} (h : Ascending edges) (events : List (Option α × W)) (data : List W)
    (hd : data.length = edges.length - 1) :
    histSortedLoop edges events data = .ok (histPure edges events data) := by
  induction events generalizing data with
  | nil => rfl
  | cons e events ih =>
    obtain ⟨x, w⟩ := e
    have hr := updateBinSorted_range h x
    have hstep : histPure edges ((x, w) :: events) data = histPure edges events (histStep edges data (x, w)) := rfl
    rw [hstep]
    simp only [histSortedLoop]
    have hub : upperBound edges x ≤ edges.length := by
      simp only [upperBound]; exact (List.takeWhile_prefix _).length_le
    by_cases hc : upperBound edges x ≠ edges.length ∧ upperBound edges x ≠ 0
    · have eb : updateBinSorted edges x 0 = (upperBound edges x : Int) - 1 := by
        simp only [updateBinSorted, (by decide : ¬ ((0 : Int) = -1)), if_false]
        rw [if_neg (by omega)]; omega
      rw [if_pos hc, iadd_ok data _ w (by omega) (by omega)]
      have e1 : histStep edges data (x, w) = data.modify ((upperBound edges x : Int) - 1).toNat (· + w) := by
        simp only [histStep, eb]; rw [if_neg (by omega)]
      rw [e1]
      exact ih _ (by simpa using hd)
    · have eb : updateBinSorted edges x 0 = -1 := by
        simp only [updateBinSorted, (by decide : ¬ ((0 : Int) = -1)), if_false]
        rw [if_pos (by omega)]
      rw [if_neg hc]
      have e1 : histStep edges data (x, w) = data := by
        simp only [histStep, eb]; rw [if_pos (by omega)]
      rw [e1]
      exact ih _ hd

theorem weightWhere_cons (p : Option α → Prop) [DecidablePred p] (e : Option α × W) (events : List (Option α × W)) :
    weightWhere p (e :: events) = (if p e.1 then e.2 else 0) + weightWhere p events := by
  simp only [weightWhere, List.filter_cons]
  by_cases h : p e.1 <;> simp [h]

theorem weightWhere_append (p : Option α → Prop) [DecidablePred p] (a b : List (Option α × W)) :
    weightWhere p (a ++ b) = weightWhere p a + weightWhere p b := by
  simp [weightWhere]

theorem histPure_get {edges : List α} (h : Ascending edges) (events : List (Option α × W)) (data : List W) (i : Nat) (d : W)
    (hd : data[i]? = some d) :
    (histPure edges events data)[i]? = some (d + weightWhere (InBin edges i) events) := by
  induction events generalizing data d with
  | nil => simpa [histPure, weightWhere] using hd
  | cons e events ih =>
    show (histPure edges events (histStep edges data e))[i]? = _
    have hspec := updateBinSorted_spec h e.1
    have hiff : updateBinSorted edges e.1 0 = i ↔ InBin edges i e.1 := by
      constructor
      · intro he
        rcases hspec with ⟨j, hj, hb⟩ | ⟨hm, _⟩
        · have : i = j := by omega
          exact this ▸ hb
        · omega
      · intro hi; exact IsBinOf.unique h hspec (Or.inl ⟨i, rfl, hi⟩)
    have hstep : (histStep edges data e)[i]? = some (d + if InBin edges i e.1 then e.2 else 0) := by
      unfold histStep
      by_cases hneg : updateBinSorted edges e.1 0 < 0
      · rw [if_pos hneg, if_neg (by rw [← hiff]; omega), add_zero, hd]
      · rw [if_neg hneg, List.getElem?_modify]
        by_cases hi : InBin edges i e.1
        · have := hiff.mpr hi
          have e : (updateBinSorted edges e.1 0).toNat = i := by omega
          simp [hi, hd, e]
        · have : ¬ updateBinSorted edges e.1 0 = i := fun h => hi (hiff.mp h)
          have e : ¬ (updateBinSorted edges e.1 0).toNat = i := by omega
          simp [hi, hd, e]
    rw [ih _ _ hstep, weightWhere_cons, add_assoc]

theorem sum_modify (l : List W) (n : Nat) (w : W) (h : n < l.length) : (l.modify n (· + w)).sum = l.sum + w := by
  induction l generalizing n with
  | nil => simp at h
  | cons a l ih =>
    cases n with
    | zero => simp [List.modify_cons, add_right_comm]
    | succ n =>
      simp only [List.modify_succ_cons, List.sum_cons]
      rw [ih n (by simpa using h), add_assoc]

theorem histPure_sum {edges : List α} (h : Ascending edges) (events : List (Option α × W)) (data : List W)
    (hd : data.length = edges.length - 1) (p : Option α → Prop) [DecidablePred p]
    (hp : ∀ x, p x ↔ updateBinSorted edges x 0 ≠ -1) :
    (histPure edges events data).sum = data.sum + weightWhere p events := by
  induction events generalizing data with
  | nil => simp [histPure, weightWhere]
  | cons e events ih =>
    show (histPure edges events (histStep edges data e)).sum = _
    have hr := updateBinSorted_range h e.1
    rw [ih _ (by rw [histStep_length, hd]), weightWhere_cons]
    unfold histStep
    by_cases hneg : updateBinSorted edges e.1 0 < 0
    · rw [if_pos hneg, if_neg (by rw [hp]; omega), zero_add]
    · rw [if_neg hneg, if_pos (by rw [hp]; omega), sum_modify _ _ _ (by omega), add_assoc]

end Scipp
