import Verif.Spec.Domains
import Mathlib.Order.Basic
import Mathlib.Data.Nat.Basic
import Mathlib.Tactic.SplitIfs
import Mathlib.Tactic.Tauto

/-!
# C110: merging adjacent bins with equal values

`merge_equal_adjacent` gives the same step function with the smallest number of bins.
-/

namespace Scipp.Props
open Scipp Scipp.Domains

variable {V X : Type} [LinearOrder X]

private theorem at_cons {v : V} {vs : List V} {e e1 : X} {es : List X} {x : X} {w : V} :
    At (v :: vs) (e :: e1 :: es) x w ↔ (e ≤ x ∧ x < e1 ∧ w = v) ∨ At vs (e1 :: es) x w := by
  constructor
  · rintro ⟨i, a, b, h1, h2, h3, h4, h5⟩
    cases i with
    | zero =>
      simp only [List.getElem?_cons_zero, Option.some.injEq, Nat.zero_add, List.getElem?_cons_succ] at h1 h2 h3
      subst h1; subst h2
      exact Or.inl ⟨h4, h5, h3.symm⟩
    | succ i => exact Or.inr ⟨i, a, b, by simpa using h1, by simpa using h2, by simpa using h3, h4, h5⟩
  · rintro (⟨h1, h2, rfl⟩ | ⟨i, a, b, h1, h2, h3, h4⟩)
    · exact ⟨0, e, e1, rfl, rfl, rfl, h1, h2⟩
    · exact ⟨i + 1, a, b, by simpa using h1, by simpa using h2, by simpa using h3, h4⟩

private theorem select_sublist {α : Type} (cs : List Bool) (xs : List α) : (select cs xs).Sublist xs := by
  induction xs generalizing cs with
  | nil => cases cs with
    | nil => simp [select]
    | cons c cs => cases c <;> simp [select]
  | cons x xs ih => cases cs with
    | nil => simp [select]
    | cons c cs => cases c with
      | true => exact (ih cs).cons₂ x
      | false => exact (ih cs).cons x

private theorem select_length {α β : Type} (cs : List Bool) (xs : List α) (ys : List β) (h : xs.length = ys.length) :
    (select cs xs).length = (select cs ys).length := by
  induction xs generalizing cs ys with
  | nil =>
    have : ys = [] := List.length_eq_zero_iff.1 h.symm
    subst this
    cases cs with
    | nil => simp [select]
    | cons c cs => cases c <;> simp [select]
  | cons x xs ih =>
    cases ys with
    | nil => simp at h
    | cons y ys => cases cs with
      | nil => simp [select]
      | cons c cs =>
        have := ih cs ys (by simpa using h)
        cases c <;> simp [select, this]

/-- The value of the first bin is not changed. -/
private theorem select_head (ne : V → V → Bool) (hne : ∀ a b, ne b a = false → b = a) (v : V) (vs : List V) :
    ∃ M, select (condition ne (v :: vs)) (v :: vs) = v :: M := by
  induction vs generalizing v with
  | nil => exact ⟨[], rfl⟩
  | cons b vs ih =>
    cases h : ne b v with
    | true => exact ⟨_, by rw [condition, h]; rfl⟩
    | false =>
      have := hne v b h
      subst this
      obtain ⟨M, hM⟩ := ih b
      exact ⟨M, by rw [condition, h]; exact hM⟩

private theorem main (ne : V → V → Bool) (hne : ∀ a b, ne b a = false → b = a) (v : V) (vs : List V) (e : X) (es : List X)
    (hl : es.length = (v :: vs).length) (hs : (e :: es).Pairwise (· ≤ ·)) (x : X) (w : V) :
    At (select (condition ne (v :: vs)) (v :: vs)) (e :: select (condition ne (v :: vs)) es) x w ↔ At (v :: vs) (e :: es) x w := by
  induction vs generalizing v e es with
  | nil =>
    match es, hl with
    | [e1], _ => exact Iff.rfl
  | cons b vs ih =>
    match es, hl with
    | e1 :: es, hl =>
      have hl' : es.length = (b :: vs).length := by simpa using hl
      have hs' : (e1 :: es).Pairwise (· ≤ ·) := (List.pairwise_cons.1 hs).2
      have h1 : e ≤ e1 := (List.pairwise_cons.1 hs).1 e1 List.mem_cons_self
      have hi := ih b e1 es hl' hs'
      cases h : ne b v with
      | true =>
        simp only [condition, h, select]
        rw [at_cons, at_cons, hi]
      | false =>
        have := hne v b h
        subst this
        simp only [condition, h, select]
        rw [at_cons, ← hi]
        obtain ⟨M, hM⟩ := select_head ne hne b vs
        have hlen := select_length (condition ne (b :: vs)) (b :: vs) es hl'.symm
        rw [hM] at hlen ⊢
        cases hT : select (condition ne (b :: vs)) es with
        | nil => rw [hT] at hlen; simp at hlen
        | cons t T =>
          have ht : t ∈ es := (select_sublist _ es).subset (by rw [hT]; exact List.mem_cons_self)
          have h2 : e1 ≤ t := (List.pairwise_cons.1 hs').1 t ht
          rw [at_cons, at_cons]
          constructor
          · rintro (⟨h3, h4, h5⟩ | h3)
            · by_cases h6 : x < e1
              · exact Or.inl ⟨h3, h6, h5⟩
              · exact Or.inr (Or.inl ⟨not_lt.1 h6, h4, h5⟩)
            · exact Or.inr (Or.inr h3)
          · rintro (⟨h3, h4, h5⟩ | ⟨h3, h4, h5⟩ | h3)
            · exact Or.inl ⟨h3, lt_of_lt_of_le h4 h2, h5⟩
            · exact Or.inl ⟨le_trans h1 h3, h4, h5⟩
            · exact Or.inr h3

/-- The merged histogram has the same value as the original everywhere, and none outside of its range. Values for which the comparison `!=` is false are
the same; nothing is required of values that are different from themselves, i.e., NaN. -/
theorem C110_same_function (ne : V → V → Bool) (hne : ∀ a b, ne b a = false → b = a) (values : List V) (edges : List X)
    (hs : edges.Pairwise (· ≤ ·)) (r : List V × List X) (h : mergeEqualAdjacent ne values edges = .ok r) (x : X) (w : V) :
    At r.1 r.2 x w ↔ At values edges x w := by
  unfold mergeEqualAdjacent at h
  split at h
  · cases h
  · rename_i e es
    split_ifs at h with h1 h2
    have h := Except.ok.inj h
    subst h
    cases values with
    | nil => exact absurd rfl h2
    | cons v vs => exact main ne hne v vs e es (by simpa using h1) hs x w

private theorem adjacent (ne : V → V → Bool) (hne : ∀ a b, ne b a = false → b = a) (v : V) (vs : List V) :
    ∀ (i : Nat) (a b : V), (select (condition ne (v :: vs)) (v :: vs))[i]? = some a →
      (select (condition ne (v :: vs)) (v :: vs))[i + 1]? = some b → ne b a = true := by
  induction vs generalizing v with
  | nil => intro i a b h1 h2; simp [condition, select] at h2
  | cons y vs ih =>
    intro i a b h1 h2
    cases h : ne y v with
    | true =>
      simp only [condition, h, select] at h1 h2
      cases i with
      | zero =>
        obtain ⟨M, hM⟩ := select_head ne hne y vs
        rw [hM] at h2
        simp only [List.getElem?_cons_zero, Option.some.injEq, Nat.zero_add, List.getElem?_cons_succ] at h1 h2
        subst h1; subst h2
        exact h
      | succ i => exact ih y i a b (by simpa using h1) (by simpa using h2)
    | false =>
      simp only [condition, h, select] at h1 h2
      exact ih y i a b h1 h2

/-- Adjacent bins of the result have different values, its edges are edges of the input with the same first and last, and it is a histogram. It exists for
every histogram with at least one bin. -/
theorem C110_minimal (ne : V → V → Bool) (hne : ∀ a b, ne b a = false → b = a) (values : List V) (edges : List X)
    (hl : edges.length = values.length + 1) (h0 : values ≠ []) :
    ∃ r, mergeEqualAdjacent ne values edges = .ok r ∧ r.2.length = r.1.length + 1 ∧
      (∀ (i : Nat) (a b : V), r.1[i]? = some a → r.1[i + 1]? = some b → ne b a = true) ∧
      r.1.Sublist values ∧ r.2.Sublist edges ∧ r.2.head? = edges.head? ∧ r.2.getLast? = edges.getLast? := by
  match edges, hl with
  | e :: es, hl =>
    have hl' : es.length = values.length := by simpa using hl
    refine ⟨_, by rw [mergeEqualAdjacent, if_neg (fun h => h hl'), if_neg h0], ?_, ?_, select_sublist _ _, (select_sublist _ _).cons₂ e, rfl, ?_⟩
    · simp [select_length (condition ne values) values es hl'.symm]
    · cases values with
      | nil => exact absurd rfl h0
      | cons v vs => exact adjacent ne hne v vs
    · cases values with
      | nil => exact absurd rfl h0
      | cons v vs =>
        clear h0 hl
        have : ∀ (v : V) (vs : List V) (es : List X), es.length = (v :: vs).length →
            (select (condition ne (v :: vs)) es).getLast? = es.getLast? ∧ es ≠ [] := by
          intro v vs
          induction vs generalizing v with
          | nil =>
            intro es h
            match es, h with
            | [e1], _ => exact ⟨rfl, by simp⟩
          | cons b vs ih =>
            intro es h
            match es, h with
            | e1 :: es, h =>
              obtain ⟨h1, h2⟩ := ih b es (by simpa using h)
              refine ⟨?_, by simp⟩
              obtain ⟨z, zs, hz⟩ := List.exists_cons_of_ne_nil h2
              have hlast : (e1 :: es).getLast? = es.getLast? := by rw [hz, List.getLast?_cons_cons]
              rw [hlast]
              cases hb : ne b v with
              | true =>
                simp only [condition, hb, select]
                cases hsel : select (condition ne (b :: vs)) es with
                | nil => rw [hsel, hz] at h1; exact absurd h1.symm (by rw [List.getLast?_nil, List.getLast?_eq_none_iff]; simp)
                | cons t T => rw [List.getLast?_cons_cons, ← hsel]; exact h1
              | false =>
                simp only [condition, hb, select]
                exact h1
        obtain ⟨h1, h2⟩ := this v vs es hl'
        obtain ⟨z, zs, hz⟩ := List.exists_cons_of_ne_nil h2
        have hlast : (e :: es).getLast? = es.getLast? := by rw [hz, List.getLast?_cons_cons]
        dsimp only
        rw [hlast, ← h1]
        cases hsel : select (condition ne (v :: vs)) es with
        | nil => rw [hsel, hz] at h1; exact absurd h1.symm (by rw [List.getLast?_nil, List.getLast?_eq_none_iff]; simp)
        | cons t T => rw [List.getLast?_cons_cons]

/-! ## Examples -/

/-- Comparison of integers, with a number -1 that stands for NaN. -/
private def ne' (b a : Int) : Bool := b = -1 || a = -1 || b ≠ a

private theorem ne'_spec (a b : Int) (h : ne' b a = false) : b = a := by
  simp [ne'] at h; exact h.2

example : mergeEqualAdjacent ne' [3, 3, 5, -1, -1, 3, 3, 3] [0, 1, 2, 3, 4, 5, 6, 7, 8] = .ok ([3, 5, -1, -1, 3], [0, 2, 3, 4, 5, 8]) := by decide

example (x : Nat) (w : Int) : At [3, 5, -1, -1, 3] [0, 2, 3, 4, 5, 8] x w ↔ At [3, 3, 5, -1, -1, 3, 3, 3] [0, 1, 2, 3, 4, 5, 6, 7, 8] x w :=
  C110_same_function ne' ne'_spec _ _ (by decide) ([3, 5, -1, -1, 3], [0, 2, 3, 4, 5, 8]) (by decide) x w

example := C110_minimal ne' ne'_spec [3, 3, 5, -1, -1, 3, 3, 3] [0, 1, 2, 3, 4, 5, 6, 7, 8] (by decide) (by decide)

end Scipp.Props
