import Verif.Model.MakeBins
import Mathlib.Data.List.Basic
import Mathlib.Data.List.Pairwise
/-
C72: bins made from begin and end indices.
-/
namespace Scipp.Props

open Scipp MakeBins

/-- One range ends before the other begins. -/
def Apart (a b : Int × Int) : Prop := a.2 ≤ b.1 ∨ b.2 ≤ a.1

/-- A range of positions of a buffer of length `n`. -/
def RangeIn (n : Int) (p : Int × Int) : Prop := 0 ≤ p.1 ∧ p.1 ≤ p.2 ∧ p.2 ≤ n

/-- Position `k` is in the range. -/
def InRange (k : Int) (p : Int × Int) : Prop := p.1 ≤ k ∧ k < p.2

theorem Apart.symm {a b : Int × Int} (h : Apart a b) : Apart b a := h.elim .inr .inl

theorem lexLe_iff {a b : Int × Int} : lexLe a b = true ↔ a.1 < b.1 ∨ (a.1 = b.1 ∧ a.2 ≤ b.2) := by
  simp [lexLe]

instance : Std.Total (fun a b : Int × Int => lexLe a b = true) :=
  ⟨fun a b => by simp only [lexLe_iff]; omega⟩

instance : IsTrans (Int × Int) (fun a b => lexLe a b = true) :=
  ⟨fun a b c h1 h2 => by rw [lexLe_iff] at *; omega⟩

theorem sorted_sort (l : List (Int × Int)) : (sortPairs l).Pairwise (fun a b => lexLe a b = true) :=
  List.pairwise_insertionSort _ l

theorem adjacentOverlap_false : ∀ {l : List (Int × Int)}, (∀ p ∈ l, p.1 ≤ p.2) →
    (adjacentOverlap l = false ↔ l.Pairwise (fun a b => a.2 ≤ b.1))
  | [], _ => by simp [adjacentOverlap]
  | [a], _ => by simp [adjacentOverlap]
  | a :: b :: l, h => by
    have ih := adjacentOverlap_false (l := b :: l) (fun p hp => h p (List.mem_cons_of_mem _ hp))
    rw [adjacentOverlap, Bool.or_eq_false_iff, ih, List.pairwise_cons (a := a)]
    constructor
    · rintro ⟨h1, h2⟩
      have h1' : a.2 ≤ b.1 := by simpa using h1
      refine ⟨fun p hp => ?_, h2⟩
      rcases List.mem_cons.1 hp with rfl | hp
      · exact h1'
      · have := (List.pairwise_cons.1 h2).1 p hp
        have := h b (by simp)
        omega
    · rintro ⟨h1, h2⟩
      exact ⟨by simpa using h1 b (by simp), h2⟩

theorem getLast_max : ∀ {l : List (Int × Int)} {p : Int × Int}, l.getLast? = some p → (∀ p ∈ l, p.1 ≤ p.2) →
    l.Pairwise (fun a b => a.2 ≤ b.1) → ∀ q ∈ l, q.2 ≤ p.2
  | [], _, h, _, _, _, _ => by simp at h
  | [a], p, h, _, _, q, hq => by simp at h hq; subst h hq; exact Int.le_refl _
  | a :: b :: l, p, h, hle, hp, q, hq => by
    rw [List.getLast?_cons_cons] at h
    rw [List.pairwise_cons] at hp
    have ih := getLast_max h (fun p hp => hle p (List.mem_cons_of_mem _ hp)) hp.2
    rcases List.mem_cons.1 hq with rfl | hq
    · have h1 := hp.1 b (by simp)
      have h2 := hle b (by simp)
      have h3 := ih b (by simp)
      omega
    · exact ih q hq

/-- **C72** Bin indices are accepted exactly if every bin is a range of positions of the buffer (begin not after end)
and, of any two bins, one ends before or where the other begins. -/
theorem C72_accepted_iff (vals : List (Int × Int)) (n : Int) :
    expectValid true vals n = .ok () ↔ (∀ p ∈ vals, RangeIn n p) ∧ vals.Pairwise Apart := by
  have hperm := List.perm_insertionSort (fun a b => lexLe a b = true) vals
  have hsort := sorted_sort vals
  have hapart : vals.Pairwise Apart ↔ (sortPairs vals).Pairwise Apart :=
    (List.Perm.pairwise_iff (fun h => Apart.symm h) hperm).symm
  have hmem : (∀ p ∈ vals, RangeIn n p) ↔ ∀ p ∈ sortPairs vals, RangeIn n p :=
    ⟨fun h p hp => h p (hperm.mem_iff.1 hp), fun h p hp => h p (hperm.mem_iff.2 hp)⟩
  rw [hapart, hmem]
  unfold expectValid
  simp only [Bool.true_eq_false, if_false]
  generalize sortPairs vals = l at hsort
  constructor
  · intro h
    split at h
    · simp at h
    rename_i h1
    split at h
    · simp at h
    rename_i h2
    split at h
    · simp at h
    rename_i h3
    have hle : ∀ p ∈ l, p.1 ≤ p.2 := by
      intro p hp
      by_contra hc
      exact h3 (List.any_eq_true.2 ⟨p, hp, by simpa using hc⟩)
    have hpw := (adjacentOverlap_false hle).1 (by simpa using h2)
    refine ⟨fun p hp => ⟨?_, hle p hp, ?_⟩, hpw.imp fun h => .inl h⟩
    · cases l with
      | nil => simp at hp
      | cons a l =>
        have ha : 0 ≤ a.1 := by
          by_contra hc
          exact h1 (by simp [firstNegative, show a.1 < 0 by omega])
        rcases List.mem_cons.1 hp with rfl | hp
        · exact ha
        · have := (List.pairwise_cons.1 hsort).1 p hp
          rw [lexLe_iff] at this
          omega
    · cases hl : l.getLast? with
      | none => rw [List.getLast?_eq_none_iff] at hl; subst hl; simp at hp
      | some q =>
        have := getLast_max hl hle hpw p hp
        have hq : q.2 ≤ n := by
          by_contra hc
          exact h1 (by simp [lastBeyond, hl, show n < q.2 by omega])
        omega
  · rintro ⟨hr, ha⟩
    have hle : ∀ p ∈ l, p.1 ≤ p.2 := fun p hp => (hr p hp).2.1
    have hpw : l.Pairwise (fun a b => a.2 ≤ b.1) := by
      have hand := List.Pairwise.and hsort ha
      refine List.Pairwise.imp_of_mem ?_ hand
      intro a b hma hmb h
      obtain ⟨h1, h2⟩ := h
      rw [lexLe_iff] at h1
      have := hle a hma
      have := hle b hmb
      rcases h2 with h2 | h2 <;> omega
    have c1 : firstNegative l = false := by
      cases l with
      | nil => rfl
      | cons a l => have := (hr a (by simp)).1; simpa [firstNegative] using this
    have c2 : lastBeyond l n = false := by
      cases hl : l.getLast? with
      | none => simp [lastBeyond, hl]
      | some q => have := (hr q (List.mem_of_getLast? hl)).2.2; simpa [lastBeyond, hl] using this
    have c3 : l.any (fun p => decide (p.1 > p.2)) = false := by
      rw [List.any_eq_false]
      intro p hp; simpa using hle p hp
    rw [c1, c2, c3, (adjacentOverlap_false hle).2 hpw]
    simp

example : expectValid true [(4, 6), (0, 2), (2, 2), (2, 4)] 7 = .ok () := by decide +kernel

/-- An empty bin inside another bin is refused, although they have no element in common. -/
example : expectValid true [(0, 4), (2, 2)] 4 = .error .slice := by decide +kernel

/-- **C72** Indices that are not accepted raise an error, and so do indices with a unit. -/
theorem C72_refused (unitNone : Bool) (vals : List (Int × Int)) (n : Int)
    (h : unitNone = false ∨ ¬ ((∀ p ∈ vals, RangeIn n p) ∧ vals.Pairwise Apart)) :
    expectValid unitNone vals n = .error .slice ∨ expectValid unitNone vals n = .error .unit := by
  cases unitNone with
  | false => exact .inr rfl
  | true =>
    have h' : ¬ expectValid true vals n = .ok () := by
      rw [C72_accepted_iff]; simpa using h
    left
    unfold expectValid at h' ⊢
    simp only [Bool.true_eq_false, if_false] at h' ⊢
    split
    · rfl
    · rename_i h1
      rw [if_neg h1] at h'
      split
      · rfl
      · rename_i h2
        rw [if_neg h2] at h'
        split
        · rfl
        · rename_i h3
          rw [if_neg h3] at h'
          exact absurd rfl h'

example : expectValid true [(0, 3), (2, 4)] 4 = .error .slice ∧ expectValid true [(-1, 3)] 4 = .error .slice ∧
    expectValid true [(0, 5)] 4 = .error .slice ∧ expectValid true [(3, 2)] 4 = .error .slice := by decide +kernel

/-- **C72** In a binned variable with accepted indices, every position of the buffer is in at most one bin. -/
theorem C72_at_most_one_bin (vals : List (Int × Int)) (n : Int) (h : expectValid true vals n = .ok ())
    (i j : Nat) (p q : Int × Int) (hi : vals[i]? = some p) (hj : vals[j]? = some q) (k : Int)
    (hp : InRange k p) (hq : InRange k q) : i = j := by
  obtain ⟨-, ha⟩ := (C72_accepted_iff vals n).1 h
  obtain ⟨h1, e1⟩ := List.getElem?_eq_some_iff.1 hi
  obtain ⟨h2, e2⟩ := List.getElem?_eq_some_iff.1 hj
  rw [List.pairwise_iff_getElem] at ha
  unfold InRange at hp hq
  by_contra hne
  rcases Nat.lt_or_gt_of_ne hne with hlt | hlt
  · have := ha i j h1 h2 hlt
    rw [e1, e2] at this
    rcases this with h | h <;> omega
  · have := ha j i h2 h1 hlt
    rw [e1, e2] at this
    rcases this with h | h <;> omega

/-- **C72** `bins(begin, end)`: the bins are exactly the given ranges, or the call raises an error. -/
theorem C72_begin_end (b e : List Int) (n : Nat) (hl : b.length = e.length) (r : List (Int × Int)) :
    callMakeBins true (some b) (some e) n true = .ok r ↔
      r = b.zip e ∧ (∀ p ∈ b.zip e, RangeIn n p) ∧ (b.zip e).Pairwise Apart := by
  rw [← C72_accepted_iff]
  simp only [callMakeBins, bind, Except.bind, hl, if_true]
  cases h : expectValid true (b.zip e) n with
  | error x => simp
  | ok u => simp [eq_comm]

example : callMakeBins true (some [0, 4, 2]) (some [2, 6, 4]) 7 true = .ok [(0, 2), (4, 6), (2, 4)] := by
  decide +kernel

theorem fillEnds_fst : ∀ (b : List Int) (n : Int), (fillEnds b n).map Prod.fst = b
  | [], _ => rfl
  | [_], _ => rfl
  | b :: b' :: l, n => by
    rw [fillEnds, List.map_cons, fillEnds_fst (b' :: l) n]

theorem fillEnds_head {b : Int} {l : List Int} {n : Int} : ∃ e r, fillEnds (b :: l) n = (b, e) :: r := by
  cases l <;> simp [fillEnds]

/-- If begins are nondecreasing and not beyond the end, so are the filled in ranges. -/
theorem fillEnds_chain : ∀ (b : List Int) (n : Int), b.Pairwise (· ≤ ·) → (∀ x ∈ b, x ≤ n) →
    (∀ p ∈ fillEnds b n, p.1 ≤ p.2 ∧ p.2 ≤ n ∧ p.1 ∈ b) ∧ (fillEnds b n).Pairwise (fun a c => a.2 ≤ c.1)
  | [], _, _, _ => by simp [fillEnds]
  | [b], n, _, h => by
    have := h b (by simp)
    simp [fillEnds, this]
  | b :: b' :: l, n, hp, h => by
    rw [List.pairwise_cons] at hp
    obtain ⟨i1, i2⟩ := fillEnds_chain (b' :: l) n hp.2 (fun x hx => h x (List.mem_cons_of_mem _ hx))
    have hb := hp.1 b' (by simp)
    have hn := h b' (by simp)
    refine ⟨?_, ?_⟩
    · intro p hp'
      rw [fillEnds] at hp'
      rcases List.mem_cons.1 hp' with rfl | hp'
      · exact ⟨hb, hn, by simp⟩
      · obtain ⟨a, c, d⟩ := i1 p hp'
        exact ⟨a, c, List.mem_cons_of_mem _ d⟩
    · rw [fillEnds, List.pairwise_cons]
      refine ⟨fun p hp' => ?_, i2⟩
      have hm := (i1 p hp').2.2
      rcases List.mem_cons.1 hm with hm | hm
      · simp only; omega
      · exact (List.pairwise_cons.1 hp.2).1 _ hm

/-- Conversely, valid ranges force this. -/
theorem fillEnds_valid : ∀ (b : List Int) (n : Int), (∀ p ∈ fillEnds b n, RangeIn n p) →
    b.Pairwise (· ≤ ·) ∧ ∀ x ∈ b, 0 ≤ x ∧ x ≤ n
  | [], _, _ => by simp
  | [b], n, h => by
    have := h (b, n) (by simp [fillEnds])
    unfold RangeIn at this
    simp; omega
  | b :: b' :: l, n, h => by
    obtain ⟨i1, i2⟩ := fillEnds_valid (b' :: l) n (fun p hp => h p (by rw [fillEnds]; exact List.mem_cons_of_mem _ hp))
    have hb := h (b, b') (by simp [fillEnds])
    unfold RangeIn at hb
    simp only at hb
    refine ⟨List.pairwise_cons.2 ⟨fun x hx => ?_, i1⟩, ?_⟩
    · rcases List.mem_cons.1 hx with rfl | hx
      · omega
      · have := (List.pairwise_cons.1 i1).1 x hx; omega
    · intro x hx
      rcases List.mem_cons.1 hx with rfl | hx
      · have := i2 b' (by simp); omega
      · exact i2 x hx

/-- Every position from the first begin on is in a bin. -/
theorem fillEnds_cover : ∀ (b : List Int) (n : Int) (k : Int), (∃ x ∈ b, x ≤ k) → k < n →
    ∃ p ∈ fillEnds b n, InRange k p
  | [], _, _, h, _ => by simp at h
  | [b], n, k, h, hk => by
    simp at h
    exact ⟨(b, n), by simp [fillEnds], h, hk⟩
  | b :: b' :: l, n, k, h, hk => by
    by_cases hc : ∃ x ∈ b' :: l, x ≤ k
    · obtain ⟨p, hp, hr⟩ := fillEnds_cover (b' :: l) n k hc hk
      exact ⟨p, by rw [fillEnds]; exact List.mem_cons_of_mem _ hp, hr⟩
    · obtain ⟨x, hx, hxk⟩ := h
      have hxb : x = b := by
        rcases List.mem_cons.1 hx with rfl | hx
        · rfl
        · exact absurd ⟨x, hx, hxk⟩ hc
      subst hxb
      refine ⟨(x, b'), by simp [fillEnds], hxk, ?_⟩
      have : ¬ b' ≤ k := fun hb => hc ⟨b', by simp, hb⟩
      simp only; omega

/-- **C72** `bins(begin)` without `end` succeeds exactly if the begin indices are nondecreasing positions of the buffer.
Then there is one bin per begin index, starting there, and every position of the buffer from the first begin index on is in
exactly one bin, while positions before are in none. -/
theorem C72_begin_only (b : List Int) (n : Nat) (r : List (Int × Int)) :
    callMakeBins true (some b) none n true = .ok r →
      (b.Pairwise (· ≤ ·) ∧ ∀ x ∈ b, 0 ≤ x ∧ x ≤ n) ∧ r.map Prod.fst = b ∧
      (∀ k : Int, (∃ x ∈ b, x ≤ k) → k < n → ∃ (i : Nat) (p : Int × Int), r[i]? = some p ∧ InRange k p ∧
        ∀ (j : Nat) (q : Int × Int), r[j]? = some q → InRange k q → j = i) ∧
      (∀ k : Int, (∀ x ∈ b, k < x) → ∀ p ∈ r, ¬ InRange k p) ∧
      ∀ p ∈ r, RangeIn n p := by
  intro h
  simp only [callMakeBins, bind, Except.bind, if_true] at h
  split at h
  · simp at h
  rename_i hv
  injection h with h
  subst h
  obtain ⟨h1, h2⟩ := (C72_accepted_iff _ _).1 hv
  refine ⟨fillEnds_valid b n h1, fillEnds_fst b n, ?_, ?_, h1⟩
  · intro k hk hn
    obtain ⟨p, hp, hr⟩ := fillEnds_cover b n k hk hn
    obtain ⟨i, hi⟩ := List.mem_iff_getElem?.1 hp
    exact ⟨i, p, hi, hr, fun j q hj hq => C72_at_most_one_bin _ _ hv j i q p hj hi k hq hr⟩
  · intro k hk p hp hr
    have hm : p.1 ∈ b := by rw [← fillEnds_fst b n]; exact List.mem_map_of_mem hp
    have := hk _ hm
    unfold InRange at hr
    omega

/-- **C72** The begin indices for which `bins(begin)` succeeds. -/
theorem C72_begin_only_succeeds (b : List Int) (n : Nat) (hs : b.Pairwise (· ≤ ·)) (hr : ∀ x ∈ b, 0 ≤ x ∧ x ≤ n) :
    ∃ r, callMakeBins true (some b) none n true = .ok r := by
  obtain ⟨h1, h2⟩ := fillEnds_chain b n hs (fun x hx => (hr x hx).2)
  have hv : expectValid true (fillEnds b n) n = .ok () :=
    (C72_accepted_iff _ _).2 ⟨fun p hp => ⟨(hr _ (h1 p hp).2.2).1, (h1 p hp).1, (h1 p hp).2.1⟩, h2.imp fun h => .inl h⟩
  exact ⟨fillEnds b n, by simp only [callMakeBins, bind, Except.bind, if_true, hv]⟩

example : callMakeBins true (some [1, 3, 3]) none 5 true = .ok [(1, 3), (3, 3), (3, 5)] ∧
    callMakeBins true (some [3, 1]) none 5 true = .error .slice := by decide +kernel

theorem cumsumOnes_eq : ∀ (n : Nat) (acc : Int), cumsumOnes acc n = (List.range n).map fun k : Nat => acc + (k : Int)
  | 0, _ => rfl
  | n + 1, acc => by
    rw [cumsumOnes, cumsumOnes_eq n, List.range_succ_eq_map]
    simp [Function.comp_def]
    intro a _; omega

/-- **C72** Without `begin` and `end`, every element of the data is a bin of its own, in order; `end` without `begin` is
an error. -/
theorem C72_default (n : Nat) :
    callMakeBins true none none n true = .ok ((List.range n).map fun k : Nat => ((k : Int), (k : Int) + 1)) ∧
    ∀ e u v, callMakeBins u none (some e) n v = .error .runtime := by
  refine ⟨?_, fun e u v => rfl⟩
  have e : (cumsumOnes 0 n).map (fun b => (b, b + 1)) = (List.range n).map fun k : Nat => ((k : Int), (k : Int) + 1) := by
    rw [cumsumOnes_eq]; simp [Function.comp_def]
  have hv : expectValid true ((List.range n).map fun k : Nat => ((k : Int), (k : Int) + 1)) n = .ok () := by
    rw [C72_accepted_iff]
    refine ⟨?_, ?_⟩
    · intro p hp
      obtain ⟨k, hk, rfl⟩ := List.mem_map.1 hp
      rw [List.mem_range] at hk
      unfold RangeIn; simp only; omega
    · rw [List.pairwise_map]
      exact List.pairwise_lt_range.imp fun h => Or.inl (by simp only; omega)
  simp only [callMakeBins, bind, Except.bind, e, if_true, hv]

example : callMakeBins true none none 3 true = .ok [(0, 1), (1, 2), (2, 3)] := by decide +kernel

end Scipp.Props
