import Verif.Model.FoldShape
import Mathlib.Data.List.Basic
import Mathlib.Data.List.Forall2
import Mathlib.Tactic.ByContra
import Mathlib.Algebra.BigOperators.Ring.List
import Mathlib.Tactic.Ring
import Mathlib.Tactic.Linarith
/-!
C136: `fold` with a size left open.
-/
namespace Scipp.Props
open Scipp Scipp.FoldShape

/-- `r` completes `shape`: sizes are not negative, and as given unless left open. -/
def c136Completes (shape r : List Int) : Prop := List.Forall₂ (fun s n => 0 ≤ n ∧ (s = -1 ∨ s = n)) shape r

/-- A list with -1 once. -/
theorem c136_split (l : List Int) (h : l.count (-1) = 1) : ∃ pre post, l = pre ++ -1 :: post ∧ (-1 : Int) ∉ pre ∧ (-1 : Int) ∉ post ∧ ∀ n, l.set (l.idxOf (-1)) n = pre ++ n :: post := by
  induction l with
  | nil => simp at h
  | cons a l ih =>
    by_cases ha : a = -1
    · subst ha
      rw [List.count_cons_self] at h
      exact ⟨[], l, rfl, by simp, List.count_eq_zero.1 (by omega), fun n => by simp⟩
    · rw [List.count_cons_of_ne ha] at h
      obtain ⟨pre, post, h1, h2, h3, h4⟩ := ih h
      refine ⟨a :: pre, post, by rw [h1]; rfl, ?_, h3, fun n => ?_⟩
      · rw [List.mem_cons, not_or]
        exact ⟨fun e => ha e.symm, h2⟩
      · rw [List.idxOf_cons_ne l ha, List.set_cons_succ, h4 n]
        rfl

theorem c136_given (l r : List Int) (h : (-1 : Int) ∉ l) : c136Completes l r ↔ r = l ∧ ∀ n ∈ l, 0 ≤ n := by
  unfold c136Completes
  induction l generalizing r with
  | nil =>
    rw [List.forall₂_nil_left_iff]
    simp
  | cons a l ih =>
    rw [List.mem_cons, not_or] at h
    rw [List.forall₂_cons_left_iff]
    constructor
    · rintro ⟨b, t, ⟨h1, h2⟩, h3, rfl⟩
      obtain ⟨e, h4⟩ := (ih t h.2).1 h3
      have : a = b := by
        rcases h2 with h2 | h2
        · exact absurd h2.symm h.1
        · exact h2
      subst this
      subst e
      refine ⟨rfl, fun n hn => ?_⟩
      rcases List.mem_cons.1 hn with rfl | hn
      · exact h1
      · exact h4 n hn
    · rintro ⟨rfl, h4⟩
      exact ⟨a, l, ⟨h4 a List.mem_cons_self, Or.inr rfl⟩, (ih l h.2).2 ⟨rfl, fun n hn => h4 n (List.mem_cons_of_mem _ hn)⟩, rfl⟩

theorem c136_open (pre post r : List Int) (h1 : (-1 : Int) ∉ pre) (h2 : (-1 : Int) ∉ post) :
    c136Completes (pre ++ -1 :: post) r ↔ ∃ n, r = pre ++ n :: post ∧ ∀ x ∈ r, 0 ≤ x := by
  induction pre generalizing r with
  | nil =>
    unfold c136Completes
    rw [List.nil_append, List.forall₂_cons_left_iff]
    constructor
    · rintro ⟨b, t, ⟨h3, _⟩, h4, rfl⟩
      obtain ⟨e, h5⟩ := (c136_given post t h2).1 h4
      subst e
      refine ⟨b, rfl, fun x hx => ?_⟩
      rcases List.mem_cons.1 hx with rfl | hx
      · exact h3
      · exact h5 x hx
    · rintro ⟨n, rfl, h5⟩
      exact ⟨n, post, ⟨h5 n List.mem_cons_self, Or.inl rfl⟩, (c136_given post post h2).2 ⟨rfl, fun x hx => h5 x (List.mem_cons_of_mem _ hx)⟩, rfl⟩
  | cons a pre ih =>
    rw [List.mem_cons, not_or] at h1
    unfold c136Completes
    rw [List.cons_append, List.forall₂_cons_left_iff]
    constructor
    · rintro ⟨b, t, ⟨h3, h3'⟩, h4, rfl⟩
      obtain ⟨n, e, h5⟩ := (ih t h1.2).1 h4
      have : a = b := by
        rcases h3' with h3' | h3'
        · exact absurd h3'.symm h1.1
        · exact h3'
      subst this
      refine ⟨n, by rw [e]; rfl, fun x hx => ?_⟩
      rcases List.mem_cons.1 hx with rfl | hx
      · exact h3
      · exact h5 x hx
    · rintro ⟨n, rfl, h5⟩
      exact ⟨a, pre ++ n :: post, ⟨h5 a List.mem_cons_self, Or.inr rfl⟩, (ih _ h1.2).2 ⟨n, rfl, fun x hx => h5 x (List.mem_cons_of_mem _ hx)⟩, rfl⟩

theorem fold_ok (others size : Nat) (shape r : List Int) : fold others size shape = .ok r ↔ newShape size shape = .ok r ∧ (∀ n ∈ r, 0 ≤ n) ∧ (others : Int) * size = others * r.prod := by
  unfold fold
  cases newShape size shape with
  | error e => simp
  | ok s =>
    simp only
    have hany : s.any (fun n => decide (n < 0)) = true ↔ ¬ ∀ n ∈ s, 0 ≤ n := by
      rw [List.any_eq_true]
      constructor
      · rintro ⟨n, hn, h⟩ hall
        have := hall n hn
        have := of_decide_eq_true h
        omega
      · intro h
        rw [not_forall] at h
        obtain ⟨n, h⟩ := h
        rw [Classical.not_imp] at h
        exact ⟨n, h.1, decide_eq_true (by omega)⟩
    split
    · rename_i h
      constructor
      · intro h'; cases h'
      · rintro ⟨h1, h2, _⟩
        rw [← Except.ok.inj h1] at h2
        exact absurd h2 (hany.1 h)
    · rename_i h
      have hs : ∀ n ∈ s, 0 ≤ n := by
        by_contra hc
        exact h (hany.2 hc)
      split
      · rename_i h1
        constructor
        · intro h'; cases h'
        · rintro ⟨h2, _, h3⟩
          rw [← Except.ok.inj h2] at h3
          exact absurd h3 h1
      · rename_i h1
        constructor
        · intro h'
          rw [← Except.ok.inj h']
          exact ⟨rfl, hs, not_not.1 h1⟩
        · intro h'
          rw [Except.ok.inj h'.1]

/-- **C136** (partial: no other dim has length zero) The sizes used are as given, the one left open is such that the number of elements is kept. -/
theorem C136_sizes_partial (others size : Nat) (shape r : List Int) (ho : 0 < others) (h : fold others size shape = .ok r) : c136Completes shape r ∧ r.prod = size := by
  obtain ⟨h1, h2, h3⟩ := (fold_ok others size shape r).1 h
  have ho' : (others : Int) ≠ 0 := by omega
  refine ⟨?_, (mul_left_cancel₀ ho' h3).symm⟩
  unfold newShape at h1
  split at h1
  · cases h1
  · split at h1
    · rename_i hc
      obtain ⟨pre, post, e1, e2, e3, e4⟩ := c136_split shape hc
      split at h1
      · cases h1
      · rename_i n _
        rw [e4 n] at h1
        rw [e1, c136_open pre post r e2 e3]
        exact ⟨n, (Except.ok.inj h1).symm, h2⟩
    · rename_i hc1 hc2
      have hnot : (-1 : Int) ∉ shape := List.count_eq_zero.1 (by omega)
      rw [c136_given shape r hnot]
      have e := Except.ok.inj h1
      exact ⟨e.symm, e ▸ h2⟩

/-- **C136** It succeeds whenever at most one size is left open and the others can be completed. -/
theorem C136_succeeds (others size : Nat) (shape r : List Int) (hc : shape.count (-1) ≤ 1) (hr : c136Completes shape r) (hp : r.prod = size) : ∃ r', fold others size shape = .ok r' := by
  by_cases h1 : shape.count (-1) = 1
  · obtain ⟨pre, post, e1, e2, e3, e4⟩ := c136_split shape h1
    rw [e1, c136_open pre post r e2 e3] at hr
    obtain ⟨n, rfl, hpos⟩ := hr
    have hv : (pre ++ 1 :: post).prod = pre.prod * post.prod := by
      rw [List.prod_append, List.prod_cons, one_mul]
    have hn : ∀ m : Int, (pre ++ m :: post).prod = m * (pre.prod * post.prod) := by
      intro m
      rw [List.prod_append, List.prod_cons]
      ring
    have hothers : ∀ x, x ∈ pre ∨ x ∈ post → 0 ≤ x := fun x hx => hpos x (by rcases hx with h | h <;> simp [h])
    have hn0 : 0 ≤ n := hpos n (by simp)
    rw [hn] at hp
    have hshape : newShape size shape = .ok (pre ++ (if pre.prod * post.prod = 0 then 0 else n) :: post) := by
      unfold newShape
      rw [if_neg (by omega), if_pos h1, e4 1, hv]
      unfold openSize
      by_cases hz : pre.prod * post.prod = 0
      · rw [if_pos hz, if_pos hz]
        simp only
        rw [e4]
      · rw [if_neg hz, if_neg hz, ← hp, Int.mul_fmod_left, if_neg (by simp), Int.mul_fdiv_cancel _ hz]
        simp only
        rw [e4]
    refine ⟨_, (fold_ok others size shape _).2 ⟨hshape, ?_, ?_⟩⟩
    · intro x hx
      rcases List.mem_append.1 hx with hx | hx
      · exact hothers x (Or.inl hx)
      · rcases List.mem_cons.1 hx with rfl | hx
        · split
          · exact le_refl _
          · exact hn0
        · exact hothers x (Or.inr hx)
    · rw [hn]
      by_cases hz : pre.prod * post.prod = 0
      · rw [if_pos hz, ← hp, hz]
        ring
      · rw [if_neg hz, hp]
  · have h0 : shape.count (-1) = 0 := by omega
    obtain ⟨rfl, hpos⟩ := (c136_given shape r (List.count_eq_zero.1 h0)).1 hr
    refine ⟨r, (fold_ok others size r r).2 ⟨?_, hpos, by rw [hp]⟩⟩
    unfold newShape
    rw [if_neg (by omega), if_neg h1]

/-- **C136** The size left open is determined: there is no other completion, unless a given size is zero. -/
theorem C136_unique (shape r s : List Int) (hc : shape.count (-1) ≤ 1) (hr : c136Completes shape r) (hs : c136Completes shape s) (hp : r.prod = s.prod) (hz : (0 : Int) ∉ shape) : r = s := by
  by_cases h1 : shape.count (-1) = 1
  · obtain ⟨pre, post, e1, e2, e3, _⟩ := c136_split shape h1
    rw [e1] at hr hs hz
    obtain ⟨n, rfl, _⟩ := (c136_open pre post r e2 e3).1 hr
    obtain ⟨m, rfl, _⟩ := (c136_open pre post s e2 e3).1 hs
    simp only [List.mem_append, List.mem_cons, not_or] at hz
    have h3 : pre.prod ≠ 0 := fun h => hz.1 (List.prod_eq_zero_iff.1 h)
    have h4 : post.prod ≠ 0 := fun h => hz.2.2 (List.prod_eq_zero_iff.1 h)
    simp only [List.prod_append, List.prod_cons] at hp
    have := mul_right_cancel₀ h4 (mul_left_cancel₀ h3 hp)
    rw [this]
  · have hnot : (-1 : Int) ∉ shape := List.count_eq_zero.1 (by omega)
    rw [((c136_given shape r hnot).1 hr).1, ((c136_given shape s hnot).1 hs).1]

/-- **C136** More than one size left open is an error. -/
theorem C136_rejects (others size : Nat) (shape : List Int) (hc : 2 ≤ shape.count (-1)) : fold others size shape = .error .dimension := by
  unfold fold newShape
  rw [if_pos (by omega)]

/-! Cases. -/

theorem c136_fold : fold 5 12 [2, -1, 3] = .ok [2, 2, 3] := by decide

example := C136_sizes_partial 5 12 [2, -1, 3] [2, 2, 3] (by decide) c136_fold

theorem c136_completes : c136Completes [2, -1, 3] [2, 2, 3] := (C136_sizes_partial 5 12 [2, -1, 3] [2, 2, 3] (by decide) c136_fold).1

example := C136_succeeds 0 12 [2, -1, 3] [2, 2, 3] (by decide) c136_completes (by decide)

example := C136_unique [2, -1, 3] [2, 2, 3] [2, 2, 3] (by decide) c136_completes c136_completes rfl (by decide)

example := C136_rejects 1 12 [-1, 2, -1] (by decide)

/-- A length which cannot be divided, a negative size, and wrong sizes. -/
example : fold 1 13 [2, -1, 3] = .error .invalidArgument ∧ fold 1 12 [-2, -1, 3] = .error .dimension ∧ fold 1 12 [2, 3] = .error .dimension := by decide

/-- **C136** fails if another dim has length zero: any sizes are accepted, also if they do not fit the length of the dim. -/
theorem C136_wrong_empty : fold 0 6 [5, 7] = .ok [5, 7] := by decide

end Scipp.Props
