import Verif.Model.Cumulative
import Mathlib.Algebra.BigOperators.Group.List.Lemmas
import Mathlib.Data.List.Nodup
import Mathlib.Tactic.Ring
/-!
Property C29: cumulative sums.
-/
namespace Scipp.Props
open Scipp
variable {V : Type} [AddCommGroup V]

/-- Sum of the inputs of the given steps belonging to accumulator `c`. -/
def stepSum (c : Nat) (steps : List (Nat × Nat)) (x : Nat → V) : V := ((steps.filter fun s => s.1 == c).map fun s => x s.2).sum

theorem stepSum_append (c : Nat) (a b : List (Nat × Nat)) (x : Nat → V) :
    stepSum c (a ++ b) x = stepSum c a x + stepSum c b x := by simp [stepSum]

theorem stepSum_singleton (c : Nat) (s : Nat × Nat) (x : Nat → V) : stepSum c [s] x = if s.1 = c then x s.2 else 0 := by
  by_cases h : s.1 = c <;> simp [stepSum, h]

theorem stepSum_congr (c : Nat) (a : List (Nat × Nat)) (x y : Nat → V) (h : ∀ s ∈ a, x s.2 = y s.2) :
    stepSum c a x = stepSum c a y := by
  simp only [stepSum]
  congr 1
  apply List.map_congr_left
  intro s hs
  exact h s (List.mem_of_mem_filter hs)

/-- The invariant of both scans. -/
theorem scan_inv (f : (Nat → V) × (Nat → V) → Nat × Nat → (Nat → V) × (Nat → V)) (g : V → V → V)
    (hf : ∀ st s, f st s = (memSet st.1 s.1 (st.1 s.1 + st.2 s.2),
      memSet st.2 s.2 (g (st.1 s.1 + st.2 s.2) (st.2 s.2)))) (x : Nat → V) :
    ∀ (todo done : List (Nat × Nat)) (st : (Nat → V) × (Nat → V)), ((done ++ todo).map (·.2)).Nodup →
    (∀ c, st.1 c = stepSum c done x) →
    (∀ a, (∀ s ∈ done, s.2 ≠ a) → st.2 a = x a) →
    (∀ (k : Nat) s, done[k]? = some s → st.2 s.2 = g (stepSum s.1 (done.take (k + 1)) x) (x s.2)) →
    (∀ c, (todo.foldl f st).1 c = stepSum c (done ++ todo) x) ∧
    (∀ a, (∀ s ∈ done ++ todo, s.2 ≠ a) → (todo.foldl f st).2 a = x a) ∧
    (∀ (k : Nat) s, (done ++ todo)[k]? = some s →
      (todo.foldl f st).2 s.2 = g (stepSum s.1 ((done ++ todo).take (k + 1)) x) (x s.2)) := by
  intro todo
  induction todo with
  | nil =>
    intro done st _ h1 h2 h3
    simp only [List.append_nil, List.foldl_nil]
    exact ⟨h1, h2, h3⟩
  | cons t todo ih =>
    intro done st hnd h1 h2 h3
    have hfresh : ∀ s ∈ done, s.2 ≠ t.2 := by
      intro s hs e
      rw [List.map_append, List.map_cons, List.nodup_append] at hnd
      exact hnd.2.2 s.2 (List.mem_map.mpr ⟨s, hs, rfl⟩) t.2 (by simp) e
    have hx : st.2 t.2 = x t.2 := h2 _ hfresh
    have happ : done ++ t :: todo = (done ++ [t]) ++ todo := by simp
    rw [happ] at hnd ⊢
    rw [List.foldl_cons]
    refine ih (done ++ [t]) (f st t) hnd ?_ ?_ ?_
    · intro c
      rw [hf, stepSum_append, stepSum_singleton]
      simp only [memSet]
      by_cases hc : c = t.1
      · subst hc; rw [if_pos rfl, if_pos rfl, h1, hx]
      · rw [if_neg hc, if_neg (Ne.symm hc), h1, add_zero]
    · intro a ha
      rw [hf]
      simp only [memSet]
      rw [if_neg (Ne.symm (ha t (by simp)))]
      exact h2 a (fun s hs => ha s (by simp [hs]))
    · intro k s hs
      rw [hf]
      by_cases hk : k < done.length
      · rw [List.getElem?_append_left hk] at hs
        have hne : s.2 ≠ t.2 := hfresh s (List.mem_of_getElem? hs)
        simp only [memSet]
        rw [if_neg hne, h3 k s hs, List.take_append_of_le_length (by omega)]
      · have hk' : k = done.length := by
          obtain ⟨hlt, _⟩ := List.getElem?_eq_some_iff.mp hs
          simp only [List.length_append, List.length_singleton] at hlt
          omega
        subst hk'
        rw [List.getElem?_append_right (le_refl _), Nat.sub_self] at hs
        simp only [List.getElem?_cons_zero, Option.some.injEq] at hs
        subst hs
        simp only [memSet, if_true]
        rw [List.take_of_length_le (by simp), stepSum_append, stepSum_singleton, if_pos rfl, h1, hx]

/-- **C29** (general): for any sequence of visited pairs (accumulator, element) with distinct elements, the result for an element is the sum
of the inputs visited up to and including it (inclusive mode) or before it (exclusive mode) that share its accumulator; other
elements are unchanged. -/
theorem C29_scan (steps : List (Nat × Nat)) (hn : (steps.map (·.2)).Nodup) (x : Nat → V) :
    (∀ (k : Nat) s, steps[k]? = some s →
      scanAll .inclusive steps x s.2 = (((steps.take (k + 1)).filter fun t => t.1 == s.1).map fun t => x t.2).sum ∧
      scanAll .exclusive steps x s.2 = (((steps.take k).filter fun t => t.1 == s.1).map fun t => x t.2).sum) ∧
    (∀ mode a, (∀ s ∈ steps, s.2 ≠ a) → scanAll mode steps x a = x a) := by
  have hi := scan_inv inclusiveScan (fun s _ => s) (fun st s => by simp [inclusiveScan, memSet]) x steps []
    (fun _ => 0, x) (by simpa using hn) (by simp [stepSum]) (by simp) (by simp)
  have he := scan_inv exclusiveScanStep (fun s v => s - v) (fun st s => by simp [exclusiveScanStep, memSet]) x steps []
    (fun _ => 0, x) (by simpa using hn) (by simp [stepSum]) (by simp) (by simp)
  simp only [List.nil_append] at hi he
  refine ⟨fun k s hs => ⟨hi.2.2 k s hs, ?_⟩, ?_⟩
  · have h1 := he.2.2 k s hs
    have hk : steps.take (k + 1) = steps.take k ++ [s] := by
      rw [List.take_add_one, hs]; rfl
    rw [hk, stepSum_append, stepSum_singleton, if_pos rfl, add_sub_cancel_right] at h1
    exact h1
  · intro mode a ha
    cases mode with
    | inclusive => exact hi.2.1 a ha
    | exclusive => exact he.2.1 a ha

/-- Steps of a sum along the outer of two dims. -/
example := C29_scan [(0, 0), (1, 1), (0, 2), (1, 3)] (by decide) (fun k => (k : Int))

theorem cumsumSteps_take (outer n inner k : Nat) (hk : k ≤ outer * n * inner) :
    (cumsumSteps outer n inner).take k = (List.range k).map fun k => (k / (n * inner) * inner + k % inner, k) := by
  rw [cumsumSteps, ← List.map_take, List.take_range, Nat.min_eq_left hk]

/-- Positions before `k'` sharing the accumulator of `(o, j, i)`. -/
theorem filter_range (n inner o j i m : Nat) (hm : m ≤ n) (hjm : m = j ∨ m = j + 1) (hj : j < n) (hi : i < inner) :
    ((List.range ((o * n + j) * inner + i + (m - j))).filter fun l =>
      (l / (n * inner) * inner + l % inner) == (o * inner + i)).Perm
    ((List.range m).map fun j' => (o * n + j') * inner + i) := by
  have hinner : 0 < inner := by omega
  have hni : 0 < n * inner := Nat.mul_pos (by omega) hinner
  have hpos : ∀ j', j' < n → ((o * n + j') * inner + i) / (n * inner) = o ∧ ((o * n + j') * inner + i) % inner = i := by
    intro j' hj'
    have e : (o * n + j') * inner + i = (j' * inner + i) + n * inner * o := by ring
    have hlt : j' * inner + i < n * inner := by
      have : (j' + 1) * inner ≤ n * inner := Nat.mul_le_mul_right _ (by omega)
      have e2 : (j' + 1) * inner = j' * inner + inner := by ring
      omega
    refine ⟨?_, ?_⟩
    · rw [e, Nat.add_mul_div_left _ _ hni, Nat.div_eq_of_lt hlt, Nat.zero_add]
    · rw [Nat.mul_comm, Nat.mul_add_mod, Nat.mod_eq_of_lt hi]
  refine (List.perm_ext_iff_of_nodup (List.nodup_range.filter _) ?_).2 ?_
  · refine List.nodup_range.map ?_
    intro a b hab
    simp only at hab
    have : (o * n + a) * inner = (o * n + b) * inner := by omega
    have := Nat.eq_of_mul_eq_mul_right hinner this
    omega
  · intro l
    simp only [List.mem_filter, List.mem_range, beq_iff_eq, List.mem_map]
    constructor
    · rintro ⟨hl, he⟩
      have hmod := Nat.mod_lt l hinner
      have ho : l / (n * inner) = o := by
        have h1 : (l / (n * inner) * inner + l % inner) / inner = (o * inner + i) / inner := by rw [he]
        rwa [Nat.mul_comm, Nat.mul_add_div hinner, Nat.div_eq_of_lt hmod, Nat.mul_comm o, Nat.mul_add_div hinner,
          Nat.div_eq_of_lt hi, Nat.add_zero, Nat.add_zero] at h1
      have hi' : l % inner = i := by rw [ho] at he; omega
      have hdecomp : l = (l / inner) * inner + i := by
        have := Nat.div_add_mod l inner
        rw [hi', Nat.mul_comm] at this; exact this.symm
      have hq : l / inner / n = o := by rw [Nat.div_div_eq_div_mul, Nat.mul_comm inner n]; exact ho
      have hdec2 : l / inner = o * n + l / inner % n := by
        have := Nat.div_add_mod (l / inner) n
        rw [hq, Nat.mul_comm] at this; exact this.symm
      refine ⟨l / inner % n, ?_, ?_⟩
      · -- in front of the position
        rw [hdecomp] at hl
        have : l / inner < o * n + m := by
          by_contra hc
          push Not at hc
          have h2 : (o * n + m) * inner ≤ (l / inner) * inner := Nat.mul_le_mul_right _ hc
          rcases hjm with rfl | rfl
          · omega
          · have e : (o * n + (j + 1)) * inner = (o * n + j) * inner + inner := by ring
            omega
        omega
      · rw [← hdec2]; exact hdecomp.symm
    · rintro ⟨j', hj', rfl⟩
      obtain ⟨h1, h2⟩ := hpos j' (by omega)
      refine ⟨?_, by rw [h1, h2]⟩
      have h3 : (o * n + j') * inner ≤ (o * n + j) * inner := Nat.mul_le_mul_right _ (by omega)
      rcases hjm with rfl | rfl
      · have h4 : (o * n + j' + 1) * inner ≤ (o * n + m) * inner := Nat.mul_le_mul_right _ (by omega)
        have e : (o * n + j' + 1) * inner = (o * n + j') * inner + inner := by ring
        omega
      · omega

/-- **C29** (along one dimension): in an array with any number of elements outside and inside the dimension, element `j` along the dimension
becomes the sum of the first `j + 1` (inclusive) or `j` (exclusive) elements of its row. -/
theorem C29_cumsum (outer n inner : Nat) (x : Nat → V) (o j i : Nat) (ho : o < outer) (hj : j < n) (hi : i < inner) :
    cumsumDim .inclusive outer n inner x ((o * n + j) * inner + i) =
      ((List.range (j + 1)).map fun j' => x ((o * n + j') * inner + i)).sum ∧
    cumsumDim .exclusive outer n inner x ((o * n + j) * inner + i) =
      ((List.range j).map fun j' => x ((o * n + j') * inner + i)).sum := by
  have hlt : (o * n + j) * inner + i < outer * n * inner := by
    have h1 : (o * n + j + 1) * inner ≤ outer * n * inner := by
      apply Nat.mul_le_mul_right
      have : (o + 1) * n ≤ outer * n := Nat.mul_le_mul_right _ (by omega)
      have e : (o + 1) * n = o * n + n := by ring
      omega
    have e : (o * n + j + 1) * inner = (o * n + j) * inner + inner := by ring
    omega
  have hnd : ((cumsumSteps outer n inner).map (·.2)).Nodup := by
    simp only [cumsumSteps, List.map_map]
    have : (Prod.snd ∘ fun k : Nat => (k / (n * inner) * inner + k % inner, k)) = id := rfl
    rw [this, List.map_id]
    exact List.nodup_range
  have hinner : 0 < inner := by omega
  have hc : ((o * n + j) * inner + i) / (n * inner) * inner + ((o * n + j) * inner + i) % inner = o * inner + i := by
    have hperm := filter_range n inner o j i (j + 1) (by omega) (Or.inr rfl) hj hi
    have hmem : (o * n + j) * inner + i ∈ (List.range (j + 1)).map fun j' => (o * n + j') * inner + i :=
      List.mem_map.mpr ⟨j, by simp, rfl⟩
    have := hperm.mem_iff.mpr hmem
    simp only [List.mem_filter, beq_iff_eq] at this
    exact this.2
  have hget : (cumsumSteps outer n inner)[(o * n + j) * inner + i]? = some (o * inner + i, (o * n + j) * inner + i) := by
    simp only [cumsumSteps, List.getElem?_map, List.getElem?_range hlt, Option.map_some, hc]
  obtain ⟨h1, h2⟩ := (C29_scan (cumsumSteps outer n inner) hnd x).1 _ _ hget
  simp only [cumsumDim, if_neg (show ¬ n = 0 by omega)]
  simp only at h1 h2
  rw [h1, h2, cumsumSteps_take _ _ _ _ (by omega), cumsumSteps_take _ _ _ _ (by omega)]
  have hred : ∀ K, (((List.range K).map fun k => (k / (n * inner) * inner + k % inner, k)).filter
      fun t => t.1 == o * inner + i).map (fun t => x t.2) =
      ((List.range K).filter fun l => (l / (n * inner) * inner + l % inner) == o * inner + i).map x := by
    intro K
    rw [List.filter_map, List.map_map]
    rfl
  rw [hred, hred]
  constructor
  · have := (filter_range n inner o j i (j + 1) (by omega) (Or.inr rfl) hj hi).map x
    rw [show j + 1 - j = 1 by omega, List.map_map] at this
    exact this.sum_eq
  · have := (filter_range n inner o j i j (by omega) (Or.inl rfl) hj hi).map x
    rw [Nat.sub_self, Nat.add_zero, List.map_map] at this
    exact this.sum_eq

example := C29_cumsum 2 3 2 (fun k => (k : Int)) 1 2 0 (by decide) (by decide) (by decide)

/-- **C29** (all dimensions): element `k` in row-major order becomes the sum of the elements up to it. -/
theorem C29_cumsum_all (volume : Nat) (x : Nat → V) (k : Nat) (hk : k < volume) :
    cumsumAllDims .inclusive volume x k = ((List.range (k + 1)).map x).sum ∧
    cumsumAllDims .exclusive volume x k = ((List.range k).map x).sum := by
  have hnd : (((List.range volume).map fun k => (0, k)).map (·.2)).Nodup := by
    rw [List.map_map]
    have : (Prod.snd ∘ fun k : Nat => ((0 : Nat), k)) = id := rfl
    rw [this, List.map_id]
    exact List.nodup_range
  obtain ⟨h1, h2⟩ := (C29_scan _ hnd x).1 k (0, k) (by simp [hk])
  simp only [cumsumAllDims]
  simp only at h1 h2
  rw [h1, h2, ← List.map_take, ← List.map_take, List.take_range, List.take_range, Nat.min_eq_left (by omega),
    Nat.min_eq_left (by omega)]
  simp [List.filter_map, Function.comp_def]

example := C29_cumsum_all 6 (fun k => (k : Int)) 4 (by decide)

/-- **C29** (total): the last inclusive element along the dimension is the sum of the whole row. -/
theorem C29_last (outer n inner : Nat) (x : Nat → V) (o i : Nat) (ho : o < outer) (hn : 0 < n) (hi : i < inner) :
    cumsumDim .inclusive outer n inner x ((o * n + (n - 1)) * inner + i) =
      ((List.range n).map fun j' => x ((o * n + j') * inner + i)).sum := by
  have := (C29_cumsum outer n inner x o (n - 1) i ho (by omega) hi).1
  rwa [show n - 1 + 1 = n by omega] at this

example := C29_last 2 3 2 (fun k => (k : Int)) 1 0 (by decide) (by decide) (by decide)

/-- **C29** (within bins): if the bins do not share elements of the buffer, the element at position `j` of a bin becomes the sum of the first `j + 1`
(inclusive) or `j` (exclusive) elements of the bin. -/
theorem C29_cumsum_bins (bins : List (Nat × Nat)) (x : Nat → V)
    (hnd : (bins.flatMap fun b => (List.range (b.2 - b.1)).map fun j => b.1 + j).Nodup) (b e : Nat)
    (n : Nat) (hb : bins[n]? = some (b, e)) (j : Nat) (hj : j < e - b) :
    cumsumBins .inclusive bins x (b + j) = ((List.range (j + 1)).map fun j' => x (b + j')).sum ∧
    cumsumBins .exclusive bins x (b + j) = ((List.range j).map fun j' => x (b + j')).sum := by
  -- the steps: those of the bins before, of the bin, and after
  obtain ⟨hnl, hne⟩ := List.getElem?_eq_some_iff.mp hb
  let f : (Nat × Nat) × Nat → List (Nat × Nat) := fun b => (List.range (b.1.2 - b.1.1)).map fun j => (b.2, b.1.1 + j)
  have hsplit : bins.zipIdx = (bins.zipIdx.take n) ++ ((b, e), n) :: bins.zipIdx.drop (n + 1) := by
    have hl : n < bins.zipIdx.length := by simpa using hnl
    conv_lhs => rw [← List.take_append_drop n bins.zipIdx]
    rw [List.drop_eq_getElem_cons hl]
    congr 2
    simp [hne]
  have hsteps : bins.zipIdx.flatMap f = (bins.zipIdx.take n).flatMap f ++ (f ((b, e), n) ++ (bins.zipIdx.drop (n + 1)).flatMap f) := by
    conv_lhs => rw [hsplit]
    rw [List.flatMap_append, List.flatMap_cons]
  have hnd' : ((bins.zipIdx.flatMap f).map (·.2)).Nodup := by
    have : (bins.zipIdx.flatMap f).map (·.2) = bins.flatMap fun b => (List.range (b.2 - b.1)).map fun j => b.1 + j := by
      rw [List.map_flatMap]
      simp only [f, List.map_map]
      have : bins.flatMap (fun b => (List.range (b.2 - b.1)).map fun j => b.1 + j) =
          (bins.zipIdx.map (·.1)).flatMap (fun b => (List.range (b.2 - b.1)).map fun j => b.1 + j) := by
        rw [List.zipIdx_map_fst]
      rw [this, List.flatMap_map]
      rfl
    rw [this]; exact hnd
  have hpre : ∀ s ∈ (bins.zipIdx.take n).flatMap f, s.1 ≠ n := by
    intro s hs
    rw [List.mem_flatMap] at hs
    obtain ⟨q, hq, hs⟩ := hs
    simp only [f, List.mem_map] at hs
    obtain ⟨_, _, rfl⟩ := hs
    obtain ⟨m, hm⟩ := List.getElem?_of_mem hq
    rw [List.getElem?_take] at hm
    split at hm
    · rename_i hlt
      rw [List.getElem?_zipIdx] at hm
      simp only [Option.map_eq_some_iff] at hm
      obtain ⟨_, _, rfl⟩ := hm
      simp only
      omega
    · cases hm
  have hlen : (f ((b, e), n)).length = e - b := by simp [f]
  have hget : (bins.zipIdx.flatMap f)[((bins.zipIdx.take n).flatMap f).length + j]? = some (n, b + j) := by
    rw [hsteps, List.getElem?_append_right (by omega), Nat.add_sub_cancel_left, List.getElem?_append_left (by omega)]
    simp [f, hj]
  have htake : ∀ m, m ≤ e - b → (bins.zipIdx.flatMap f).take (((bins.zipIdx.take n).flatMap f).length + m) =
      (bins.zipIdx.take n).flatMap f ++ (List.range m).map fun j => (n, b + j) := by
    intro m hm
    rw [hsteps, List.take_length_add_append, List.take_append_of_le_length (by omega)]
    simp only [f]
    rw [← List.map_take, List.take_range, Nat.min_eq_left hm]
  obtain ⟨h1, h2⟩ := (C29_scan _ hnd' x).1 _ _ hget
  have hfil : ∀ m, m ≤ e - b → ((((bins.zipIdx.flatMap f).take (((bins.zipIdx.take n).flatMap f).length + m)).filter
      fun t => t.1 == n).map fun t => x t.2) = (List.range m).map fun j' => x (b + j') := by
    intro m hm
    rw [htake m hm, List.filter_append]
    have h0 : ((bins.zipIdx.take n).flatMap f).filter (fun t => t.1 == n) = [] := by
      rw [List.filter_eq_nil_iff]
      intro s hs
      simpa using hpre s hs
    rw [h0, List.nil_append, List.filter_map, List.map_map]
    simp [Function.comp_def]
  simp only [cumsumBins]
  simp only at h1 h2
  rw [Nat.add_assoc, hfil (j + 1) (by omega)] at h1
  rw [hfil j (by omega)] at h2
  exact ⟨h1, h2⟩

/-- Bins in another order than in the buffer. -/
example := C29_cumsum_bins [(3, 5), (0, 2), (5, 5)] (fun k => (k : Int) + 1) (by decide) 3 5 0 rfl 1 (by decide)

example : (List.range 6).map (cumsumDim .inclusive 1 3 2 (fun k => (k : Int))) = [0, 1, 2, 4, 6, 9] ∧
    (List.range 6).map (cumsumDim .exclusive 2 3 1 (fun k => (k : Int))) = [0, 0, 1, 0, 3, 7] := by decide

example : (List.range 6).map (cumsumBins .inclusive [(3, 5), (0, 2), (5, 5)] (fun k => (k : Int) + 1)) =
    [1, 3, 3, 4, 9, 6] := by decide

end Scipp.Props
