import Verif.Model.Accumulate
import Verif.Lemmas.Transform
/-!
Property C15: multi-threaded reductions.
-/
namespace Scipp.Props
open Scipp Accumulate
variable {A V : Type}

theorem intRange_append {a b c : Int} (h1 : a ≤ b) (h2 : b ≤ c) : intRange a b ++ intRange b c = intRange a c := by
  obtain ⟨m, hm⟩ : ∃ m : Nat, (m : Int) = b - a := ⟨(b - a).toNat, by omega⟩
  obtain ⟨n, hn⟩ : ∃ n : Nat, (n : Int) = c - b := ⟨(c - b).toNat, by omega⟩
  have e1 : (b - a).toNat = m := by omega
  have e2 : (c - b).toNat = n := by omega
  have e3 : (c - a).toNat = m + n := by omega
  simp only [intRange, e1, e2, e3, List.range_add, List.map_append, List.map_map]
  congr 1
  apply List.map_congr_left
  intro x _
  simp only [Function.comp]
  omega

/-- Chunks `[g 0, g 1), [g 1, g 2), …` of a monotone sequence cover `[g 0, g n)`. -/
theorem flatMap_chunks (g : Int → Int) (hg : ∀ i, 0 ≤ i → g i ≤ g (i + 1)) : ∀ n : Nat,
    (intRange 0 n).flatMap (fun i => intRange (g i) (g (i + 1))) = intRange (g 0) (g n) ∧ g 0 ≤ g n
  | 0 => by simp [intRange]
  | n + 1 => by
    obtain ⟨h1, h2⟩ := flatMap_chunks g hg n
    have e : intRange 0 ((n + 1 : Nat) : Int) = intRange 0 n ++ [(n : Int)] := by
      rw [← intRange_append (b := (n : Int)) (by omega) (by omega)]
      congr 1
      have : ((n + 1 : Nat) : Int) - n = 1 := by omega
      simp [intRange, this]
    have := hg n (by omega)
    have e2 : g ((n + 1 : Nat) : Int) = g ((n : Int) + 1) := by congr 1
    refine ⟨?_, by omega⟩
    rw [e, List.flatMap_append, h1, e2, ← intRange_append h2 this]
    simp

/-- **C15** (coverage): for every size and number of chunks the chunks, in order, are exactly
the indices of the outer dim: every index is in exactly one chunk. -/
theorem C15_chunks_cover (outer n : Int) (ho : 0 ≤ outer) (hn : 0 < n) :
    (intRange 0 n).flatMap (fun i => intRange (chunkBounds outer n i).1 (chunkBounds outer n i).2) =
      intRange 0 outer := by
  have hcs : 0 ≤ chunkSize outer n := by
    rw [chunkSize, Int.tdiv_eq_ediv_of_nonneg (by omega)]
    exact Int.ediv_nonneg (by omega) (by omega)
  have hcover : outer ≤ n * chunkSize outer n := by
    rw [chunkSize, Int.tdiv_eq_ediv_of_nonneg (by omega)]
    have h1 := Int.mul_ediv_add_emod (outer + n - 1) n
    have h2 := Int.emod_lt_of_pos (outer + n - 1) hn
    omega
  obtain ⟨m, rfl⟩ : ∃ m : Nat, n = m := ⟨n.toNat, by omega⟩
  have := (flatMap_chunks (fun i => min (i * chunkSize outer m) outer) (by
    intro i hi
    have : (i + 1) * chunkSize outer m = i * chunkSize outer m + chunkSize outer m := by ring
    simp only [this]
    omega) m).1
  simp only [chunkBounds]
  rw [this]
  congr 1
  · simp [ho]
  · simp only [min_eq_right hcover]

example := C15_chunks_cover 100 (nchunk 100) (by decide) (by decide)

/-- Combining partial results that all start from `v` with `op v v = v`. -/
theorem foldl_chunks (op : V → V → V) (hassoc : ∀ x y z, op (op x y) z = op x (op y z))
    (hcomm : ∀ x y, op x y = op y x) (v : V) (hv : op v v = v) :
    ∀ chunks : List (List V), (chunks.map (fun c => c.foldl op v)).foldl op v = chunks.flatten.foldl op v := by
  have hmove : ∀ (l : List V) (x y : V), l.foldl op (op x y) = op x (l.foldl op y) := by
    intro l
    induction l with
    | nil => intro x y; rfl
    | cons z l ih => intro x y; simp only [List.foldl_cons]; rw [hassoc, ih]
  have hself : ∀ l : List V, op v (l.foldl op v) = l.foldl op v := by
    intro l; rw [← hmove, hv]
  have key : ∀ (chunks : List (List V)) (p : List V),
      (chunks.map (fun c => c.foldl op v)).foldl op (p.foldl op v) = (p ++ chunks.flatten).foldl op v := by
    intro chunks
    induction chunks with
    | nil => intro p; simp
    | cons c chunks ih =>
      intro p
      simp only [List.map_cons, List.foldl_cons, List.flatten_cons]
      have : op (p.foldl op v) (c.foldl op v) = (p ++ c).foldl op v := by
        rw [List.foldl_append, ← hmove, hcomm (p.foldl op v) v, hself]
      rw [this, ih]
      simp [List.append_assoc]
  intro chunks
  simpa using key chunks []

/-- **C15**: for every associative and commutative operation, all inputs, sizes and initial values, and all blocks
the scheduler may make, the multi-threaded reduction equals the serial one: each output
element is the initial value combined with all of its inputs, each exactly once. -/
theorem C15_parallel_eq_serial (op : V → V → V) (hassoc : ∀ x y z, op (op x y) z = op x (op y z))
    (hcomm : ∀ x y, op x y = op y x) (same : (A → V) → (A → V) → Bool) (hsame : ∀ u w, same u w = true → u = w)
    (x : Input A V) (ho : 0 < x.outerSize ∨ ∀ v ∈ x.volumes, v = 0)
    (hvar : x.varNdim ≠ 0 → ∀ a, 0 ≤ x.varOuter a ∧ x.varOuter a < x.varOuterSize)
    (blocks : List (Int × Int)) (hb : IsSplit x.varOuterSize blocks) (init : A → V) (a : A) :
    doAccumulate op same x blocks init a =
      ((intRange 0 x.outerSize).flatMap (fun j => x.contrib j a)).foldl op (init a) := by
  simp only [doAccumulate]
  have hsmall : (0 : Int) < if x.binned = true then 2 else 16384 := by split <;> decide
  generalize (if x.binned = true then (2 : Int) else 16384) = small at hsmall
  split
  · rfl
  rename_i hbail
  simp only [not_or] at hbail
  split
  · split
    · rfl
    · rename_i hs
      have hs : same init (fun a => op (init a) (init a)) = true := by simpa using hs
      have hinit := congrFun (hsame _ _ hs) a
      have hpos : 0 < x.outerSize := by
        rcases ho with h | h
        · exact h
        · exfalso
          apply hbail.2.1
          rw [List.all_eq_true]
          intro v hv
          rw [h v hv]
          simpa using hsmall
      simp only [chunked, reduceRange, Input.range]
      have := foldl_chunks op hassoc hcomm (init a) hinit.symm ((intRange 0 (nchunk x.outerSize)).map (fun i =>
        (intRange (chunkBounds x.outerSize (nchunk x.outerSize) i).1
          (chunkBounds x.outerSize (nchunk x.outerSize) i).2).flatMap (fun j => x.contrib j a)))
      rw [List.map_map] at this
      simp only [Function.comp_def] at this
      rw [this]
      congr 1
      rw [← C15_chunks_cover x.outerSize (nchunk x.outerSize) (by omega) (by simp only [nchunk]; omega),
        List.flatMap_assoc, List.flatMap_def]
  · rename_i hpath
    have hnd : x.varNdim ≠ 0 := by
      intro h0
      apply hbail.2.2
      exact ⟨fun h => hpath ⟨h, .inl h0⟩, h0⟩
    -- the element is in exactly one block
    obtain ⟨hin1, hin2⟩ := hvar hnd a
    have key : ∀ (bs : List (Int × Int)) (s : A → V),
        accumulateParallel op x bs s a =
        (List.replicate ((bs.flatMap (fun b => intRange b.1 b.2)).count (x.varOuter a))
          ((intRange 0 x.outerSize).flatMap (fun j => x.contrib j a))).flatten.foldl op (s a) := by
      intro bs
      induction bs with
      | nil => intro s; simp [accumulateParallel]
      | cons b bs ih =>
        intro s
        have e : accumulateParallel op x (b :: bs) s = accumulateParallel op x bs (fun a =>
          if b.1 ≤ x.varOuter a ∧ x.varOuter a < b.2 then reduceRange op x 0 x.outerSize s a else s a) := rfl
        rw [e, ih]
        simp only [List.flatMap_cons, List.count_append]
        by_cases hm : b.1 ≤ x.varOuter a ∧ x.varOuter a < b.2
        · have : (intRange b.1 b.2).count (x.varOuter a) = 1 :=
            List.count_eq_one_of_mem (nodup_intRange _ _) (mem_intRange.2 hm)
          rw [if_pos hm, this, Nat.add_comm, List.replicate_succ, List.flatten_cons, List.foldl_append]
          rfl
        · have : (intRange b.1 b.2).count (x.varOuter a) = 0 :=
            List.count_eq_zero_of_not_mem (fun h => hm (mem_intRange.1 h))
          rw [if_neg hm, this, Nat.zero_add]
    rw [key, hb.2.count_eq, List.count_eq_one_of_mem (nodup_intRange _ _) (mem_intRange.2 ⟨hin1, hin2⟩)]
    simp

/-- The hypotheses hold for a sum of rows of different length over 3 rows into two elements. -/
example := C15_parallel_eq_serial (A := Fin 2) (V := Int) (· + ·) Int.add_assoc Int.add_comm
  (fun u w => decide (∀ a, u a = w a)) (fun u w h => funext (of_decide_eq_true h))
  ⟨true, true, [6], 1, 2, fun a => a.val, true, 3, fun j a => [j + 10 * a.val, 1]⟩ (.inl (by decide))
  (fun _ a => by simp) [(1, 2), (0, 1)] ⟨by decide, by decide⟩ (fun _ => 7) 1

/-- Bounds of the chunks for 100 indices, chunks 23 and 24 (of 24) are cut short or empty. -/
example : (intRange 0 (nchunk 100)).map (fun i => chunkBounds 100 (nchunk 100) i) =
    [(0, 5), (5, 10), (10, 15), (15, 20), (20, 25), (25, 30), (30, 35), (35, 40), (40, 45), (45, 50), (50, 55),
     (55, 60), (60, 65), (65, 70), (70, 75), (75, 80), (80, 85), (85, 90), (90, 95), (95, 100), (100, 100),
     (100, 100), (100, 100), (100, 100)] := by decide

/-- A sum over the outer dim (of 3) of binned data into two elements takes the chunked path; with non-zero initial
value the serial one. -/
example :
    let x : Input (Fin 2) Int := ⟨true, true, [6], 1, 2, fun a => a.val, true, 3, fun j a => [j + 10 * a.val, 1]⟩
    (doAccumulate (· + ·) (fun u w => decide (∀ a, u a = w a)) x [(1, 2), (0, 1)] (fun _ => 0) 1 = 36 ∧
     chunked (· + ·) x (fun _ => 0) 1 = 36 ∧
     doAccumulate (· + ·) (fun u w => decide (∀ a, u a = w a)) x [(1, 2), (0, 1)] (fun _ => 7) 1 = 43 ∧
     chunked (· + ·) x (fun _ => 7) 1 ≠ 43) := by decide

end Scipp.Props
