import Verif.Spec.LabelSlice
import Verif.Lemmas.View
import Mathlib.Data.List.Basic
import Mathlib.Order.Basic
namespace Scipp.Label
open Scipp Scipp.Sizes
variable {α : Type} [LinearOrder α]

theorem Le.trans {asc : Bool} {x y z : α} (h : Le asc x y) (h' : Le asc y z) : Le asc x z := by
  unfold Le at *
  cases asc with
  | true => exact le_trans h h'
  | false => exact le_trans h' h

theorem Le.antisymm {asc : Bool} {x y : α} (h : Le asc x y) (h' : Le (!asc) x y) : x = y := by
  unfold Le at *
  cases asc with
  | true => exact le_antisymm h h'
  | false => exact le_antisymm h' h

theorem not_le_iff {asc : Bool} {x y : α} : ¬ Le asc x y ↔ Lt asc y x := by
  unfold Le Lt
  cases asc with
  | true => simp
  | false => simp

/-- The first elements of a list are counted. -/
theorem count_prefix {β : Type} {p : β → Bool} : ∀ {l : List β}, l.Pairwise (fun x y => p y = true → p x = true) → ∀ (j : Nat) (hj : j < l.length),
    (j < l.countP p ↔ p l[j] = true)
  | [], _, j, hj => by simp at hj
  | x :: l, h, j, hj => by
    obtain ⟨h1, h2⟩ := List.pairwise_cons.1 h
    rw [List.countP_cons]
    by_cases hx : p x = true
    · rw [if_pos hx]
      cases j with
      | zero => simp [hx]
      | succ j =>
        simp only [List.getElem_cons_succ]
        rw [← count_prefix h2 j (by simpa using hj)]
        omega
    · rw [if_neg hx]
      have hall : ∀ y ∈ l, p y = false := by
        intro y hy
        by_contra hc
        exact hx (h1 y hy (by simpa using hc))
      have hz : l.countP p = 0 := by
        rw [List.countP_eq_zero]
        intro y hy
        rw [hall y hy]; decide
      rw [hz]
      cases j with
      | zero => simp [hx]
      | succ j =>
        simp only [List.getElem_cons_succ]
        rw [hall _ (List.getElem_mem _)]
        simp

theorem allSorted_iff (asc : Bool) : ∀ xs : List α, allSorted asc (xs.map some) = true ↔ xs.Pairwise (Le asc)
  | [] => by simp [allSorted]
  | [x] => by simp [allSorted]
  | x :: y :: l => by
    have ih := allSorted_iff asc (y :: l)
    simp only [List.map_cons] at ih ⊢
    rw [allSorted, Bool.and_eq_true, ih]
    have hxy : (if asc = true then fle (some x) (some y) else fle (some y) (some x)) = true ↔ Le asc x y := by
      unfold Le fle
      cases asc <;> simp
    rw [hxy]
    constructor
    · rintro ⟨h1, h2⟩
      refine List.pairwise_cons.2 ⟨fun z hz => ?_, h2⟩
      rcases List.mem_cons.1 hz with rfl | hz
      · exact h1
      · exact h1.trans ((List.pairwise_cons.1 h2).1 z hz)
    · intro h
      obtain ⟨h1, h2⟩ := List.pairwise_cons.1 h
      exact ⟨h1 y (by simp), h2⟩

theorem sorted_both {xs : List α} (h : xs.Pairwise (Le true)) (h' : xs.Pairwise (Le false)) : ∀ x ∈ xs, ∀ y ∈ xs, x = y := by
  intro x hx y hy
  obtain ⟨i, hi, rfl⟩ := List.getElem_of_mem hx
  obtain ⟨j, hj, rfl⟩ := List.getElem_of_mem hy
  have key : ∀ (i j : Nat) (hi : i < xs.length) (hj : j < xs.length), i < j → xs[i] = xs[j] := fun i j hi hj hij =>
    Le.antisymm (asc := true) (List.pairwise_iff_getElem.1 h i j hi hj hij) (List.pairwise_iff_getElem.1 h' i j hi hj hij)
  rcases Nat.lt_trichotomy i j with hij | hij | hij
  · exact key i j hi hj hij
  · subst hij; rfl
  · exact (key j i hj hi hij).symm

theorem getCoord_ok {coord : Coord α} {dim : Dim} {xs : List α} {asc : Bool} (hd : coord.dims = [(dim, (xs.length : Int))])
    (hv : coord.vals = xs.map some) (hs : Sorted asc xs) : getCoord coord dim = .ok asc := by
  have hat : Sizes.at? coord.dims dim = .ok (xs.length : Int) := by rw [hd]; simp [Sizes.at?]
  unfold getCoord
  rw [if_neg (by rw [hd]; simp), hat]
  simp only
  obtain ⟨h1, h2⟩ := hs
  rcases h2 with ⟨h2, h3⟩ | ⟨x, hx, y, hy, hxy⟩
  · rw [if_pos (by omega), h3]
  · have hlen : (xs.length : Int) ≠ 1 := by
      intro hc
      obtain ⟨z, hz⟩ := List.length_eq_one_iff.1 (show xs.length = 1 by omega)
      rw [hz] at hx hy
      simp only [List.mem_singleton] at hx hy
      exact hxy (hx.trans hy.symm)
    rw [if_neg hlen, hv]
    have ha := allSorted_iff asc xs
    cases asc with
    | true =>
      have h4 : allSorted false (xs.map some) = false := by
        by_contra hc
        exact hxy (sorted_both h1 ((allSorted_iff false xs).1 (by simpa using hc)) x hx y hy)
      rw [ha.2 h1, h4]
      rfl
    | false =>
      have h4 : allSorted true (xs.map some) = false := by
        by_contra hc
        exact hxy (sorted_both ((allSorted_iff true xs).1 (by simpa using hc)) h1 x hx y hy)
      rw [ha.2 h1, h4]
      rfl

theorem allSorted_some {asc : Bool} : ∀ {l : List (Option α)}, 2 ≤ l.length → allSorted asc l = true → ∃ xs : List α, l = xs.map some
  | [], h, _ => by simp at h
  | [_], h, _ => by simp at h
  | x :: y :: l, _, h => by
    rw [allSorted, Bool.and_eq_true] at h
    obtain ⟨h1, h2⟩ := h
    have hxy : ∃ a b, x = some a ∧ y = some b := by
      cases x with
      | none => cases asc <;> cases y <;> simp [fle] at h1
      | some a =>
        cases y with
        | none => cases asc <;> simp [fle] at h1
        | some b => exact ⟨a, b, rfl, rfl⟩
    obtain ⟨a, b, rfl, rfl⟩ := hxy
    cases l with
    | nil => exact ⟨[a, b], rfl⟩
    | cons z l =>
      obtain ⟨xs, hxs⟩ := allSorted_some (l := some b :: z :: l) (by simp) h2
      exact ⟨a :: xs, by rw [List.map_cons, ← hxs]⟩

theorem getCoord_sorted {coord : Coord α} {dim : Dim} {n : Int} {asc : Bool} (hd : coord.dims = [(dim, n)]) (hn : n = coord.vals.length) (h1 : n ≠ 1)
    (h : getCoord coord dim = .ok asc) : ∃ xs : List α, coord.vals = xs.map some ∧ Sorted asc xs := by
  have hat : Sizes.at? coord.dims dim = .ok n := by rw [hd]; simp [Sizes.at?]
  unfold getCoord at h
  rw [if_neg (by rw [hd]; simp), hat] at h
  simp only at h
  rw [if_neg h1] at h
  by_cases hx : (allSorted true coord.vals ^^ allSorted false coord.vals) = false
  · rw [if_pos hx] at h; cases h
  · rw [if_neg hx] at h
    have hasc := Except.ok.inj h
    have hother : allSorted (!asc) coord.vals = false := by
      cases h3 : allSorted true coord.vals <;> cases h4 : allSorted false coord.vals <;> simp_all
    have hself : allSorted asc coord.vals = true := by
      cases h3 : allSorted true coord.vals <;> cases h4 : allSorted false coord.vals <;> simp_all
    have hlen : 2 ≤ coord.vals.length := by
      by_contra hc
      have : coord.vals.length = 0 := by omega
      rw [List.length_eq_zero_iff.1 this] at hother
      simp [allSorted] at hother
    obtain ⟨xs, hxs⟩ := allSorted_some hlen hself
    rw [hxs] at hself hother
    refine ⟨xs, hxs, (allSorted_iff asc xs).1 hself, .inr ?_⟩
    by_contra hc
    have hall : ∀ x ∈ xs, ∀ y ∈ xs, x = y := by
      intro x hx y hy
      by_contra hxy
      exact hc ⟨x, hx, y, hy, hxy⟩
    have : xs.Pairwise (Le (!asc)) := by
      rw [List.pairwise_iff_getElem]
      intro i j hi hj _
      rw [hall xs[i] (List.getElem_mem _) xs[j] (List.getElem_mem _)]
      unfold Le
      cases asc <;> simp
    rw [(allSorted_iff (!asc) xs).2 this] at hother
    cases hother

/-- Number of values before a label. -/
theorem count_le (asc : Bool) {xs : List α} (hs : xs.Pairwise (Le asc)) (v : α) (j : Nat) (hj : j < xs.length) :
    ((j : Int) < getCount (xs.map some) (some v) asc ↔ Le asc xs[j] v) ∧ getCount (xs.map some) (some v) asc ≤ xs.length := by
  have hc : getCount (xs.map some) (some v) asc = ((xs.countP (fun x => decide (Le asc x v)) : Nat) : Int) := by
    unfold getCount Le
    cases asc with
    | true => simp only [if_pos, List.countP_map]; rfl
    | false => simp only [Bool.false_eq_true, if_false, List.countP_map]; rfl
  rw [hc]
  refine ⟨?_, by exact_mod_cast List.countP_le_length⟩
  have := count_prefix (p := fun x => decide (Le asc x v)) (l := xs) (hs.imp (by
    intro a b hab hb
    rw [decide_eq_true_iff] at hb ⊢
    exact hab.trans hb)) j hj
  rw [decide_eq_true_iff] at this
  rw [← this]
  omega

/-- Number of values strictly before a label. -/
theorem count_lt (asc : Bool) {xs : List α} (hs : xs.Pairwise (Le asc)) (v : α) (j : Nat) (hj : j < xs.length) :
    ((j : Int) < xs.length - getCount (xs.map some) (some v) (!asc) ↔ Lt asc xs[j] v) := by
  have hc : (xs.length : Int) - getCount (xs.map some) (some v) (!asc) = ((xs.countP (fun x => decide (Lt asc x v)) : Nat) : Int) := by
    have h1 := List.length_eq_countP_add_countP (fun x => decide (Lt asc x v)) (l := xs)
    have h2 : getCount (xs.map some) (some v) (!asc) = ((xs.countP (fun a => decide ¬ decide (Lt asc a v) = true) : Nat) : Int) := by
      unfold getCount Lt
      cases asc with
      | true =>
        simp only [Bool.not_true, Bool.false_eq_true, if_false, List.countP_map, if_true]
        congr 2
        funext x
        simp [fle]
      | false =>
        simp only [Bool.not_false, if_true, List.countP_map, Bool.false_eq_true, if_false]
        congr 2
        funext x
        simp [fle]
    omega
  rw [hc]
  have := count_prefix (p := fun x => decide (Lt asc x v)) (l := xs) (hs.imp (by
    intro a b hab hb
    rw [decide_eq_true_iff] at hb ⊢
    unfold Lt Le at *
    cases asc with
    | true => exact lt_of_le_of_lt hab hb
    | false => exact lt_of_lt_of_le hb hab)) j hj
  rw [decide_eq_true_iff] at this
  rw [← this]
  omega

theorem getCount_nonneg (vals : List (Option α)) (v : Option α) (asc : Bool) : 0 ≤ getCount vals v asc ∧ getCount vals v asc ≤ vals.length := by
  unfold getCount
  split
  · exact ⟨by omega, by exact_mod_cast List.countP_le_length⟩
  · exact ⟨by omega, by exact_mod_cast List.countP_le_length⟩

theorem clamp_eq {i n : Int} (hn : 0 ≤ n) : clamp 0 i n = max 0 i := by
  unfold clamp
  split
  · omega
  · split <;> omega

end Scipp.Label
