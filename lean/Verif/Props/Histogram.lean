import Verif.Lemmas.Histogram
import Verif.Props.BinIndex
import Verif.Model.Numeric
import Verif.Model.Transform
/-!
Properties C19 (histogramming) and C51 (splitting of a table for threading). Vocabulary in `Verif/Spec/Histogram.lean`.
-/
namespace Scipp.Props
open Scipp Spec
variable {α : Type} [LinearOrder α] {W : Type} [AddCommMonoid W]

theorem histogram_eq (lin : List α → Bool) (guess : List α → α → Int) (edges : List α) (h : Ascending edges)
    (hlin : lin edges = true → edges ≠ [] ∧ GuessOk edges (guess edges)) (events : List (Option α × W)) :
    histogram lin guess edges events = .ok (histPure edges events (List.replicate (edges.length - 1) 0)) := by
  simp only [histogram]
  by_cases hl : lin edges = true
  · rw [if_pos hl]
    exact histLinLoop_ok h (hlin hl).1 _ (hlin hl).2 _ _ (by simp)
  · rw [if_neg hl, if_pos ((isSorted_iff edges).mpr h)]
    exact histSortedLoop_ok h _ _ (by simp)

/-- **C19**: for sorted edges the histogram of a list of weighted events (with possibly NaN coordinates) has one entry per bin, entry `i`
being the sum of the weights of the events with `edges[i] ≤ x < edges[i+1]`. The sum of all entries is the weight of the
events in `[front, back)`. Partial: also edges that are not sorted are accepted by the code if they are integers and form a zigzag, see
`C19_unsorted_accepted`, rather than being rejected as claimed; the fast path requires the guess to be within one bin. -/
theorem C19_histogram_partial (lin : List α → Bool) (guess : List α → α → Int) (edges : List α) (h : Ascending edges)
    (hlin : lin edges = true → edges ≠ [] ∧ GuessOk edges (guess edges)) (events : List (Option α × W)) :
    ∃ data, histogram lin guess edges events = .ok data ∧ data.length = edges.length - 1 ∧
      (∀ i, i < data.length → data[i]? = some (weightWhere (InBin edges i) events)) ∧
      (∀ front back, edges.head? = some front → edges.getLast? = some back →
        data.sum = weightWhere (InRange front back) events) := by
  refine ⟨_, histogram_eq lin guess edges h hlin events, by simp [histPure_length], ?_, ?_⟩
  · intro i hi
    rw [histPure_length, List.length_replicate] at hi
    rw [histPure_get h events _ i 0 (by rw [List.getElem?_replicate]; simp [hi]), zero_add]
  · intro front back hf hb
    rw [histPure_sum h events _ (by simp) (InRange front back)]
    · simp
    · intro x
      rw [Ne, C18_outside edges h front back hf hb]
      cases x with
      | none => simp [InRange]
      | some v => simp [InRange]

example := C19_histogram_partial (W := Int) (fun _ => false) (fun _ _ => 0) [(0 : Int), 2, 3] (by unfold Ascending; decide) (by simp)
  [(some 1, 5), (some 2, 7), (none, 100), (some 0, 1), (some 3, 50)]

/-- **C19**: edges that are not sorted are rejected, unless classified as linear. -/
theorem C19_unsorted_rejected (lin : List α → Bool) (guess : List α → α → Int) (edges : List α) (h : ¬ Ascending edges)
    (hlin : lin edges = false) (events : List (Option α × W)) : histogram lin guess edges events = .error .binEdge := by
  have : isSorted edges = false := by
    by_contra hc
    exact h ((isSorted_iff edges).mp (by simpa using hc))
  simp [histogram, hlin, this]

example := C19_unsorted_rejected (W := Int) (fun _ => false) (fun _ _ => 0) [(0 : Int), 3, 2] (by unfold Ascending; decide) rfl
  [(some 1, 5), (some 2, 7)]

/-- Integer edges 0, 1, 0, 1 are accepted, the event at 0 is counted in the first of the two bins `[0, 1)` only. -/
theorem C19_unsorted_accepted : histogram Numeric.islinspaceInt (fun e v => (v - e.headD 0) * 3) [0, 1, 0, 1]
    [(some 0, (5 : Int))] = .ok [5, 0, 0] ∧ ¬ Ascending [(0 : Int), 1, 0, 1] := by
  refine ⟨by decide, by unfold Ascending; decide⟩

/-- The ranges of `pretendBins` in closed form. -/
theorem pretendBins_eq (n : Int) (hn : 0 ≤ n) : ∃ (m : Nat) (s : Int), 0 < m ∧ 0 < s ∧ (m - 1 : Int) * s ≤ n ∧
    pretendBins n = (List.range m).map fun i : Nat =>
      ((i : Int) * s, if i + 1 = m then n else ((i + 1 : Nat) : Int) * s) := by
  have hsize : 1 ≤ max 1 n := by omega
  have hnt : 1 ≤ nthread (max 1 n) ∧ nthread (max 1 n) ≤ 24 ∧ nthread (max 1 n) ≤ max 1 n := by
    simp only [nthread]
    split
    · omega
    · split
      · omega
      · split <;> omega
  generalize ht : nthread (max 1 n) = t at hnt
  have hq : 1 ≤ (max 1 n).tdiv t := by
    rw [Int.tdiv_eq_ediv_of_nonneg (by omega)]
    exact (Int.le_ediv_iff_mul_le (by omega)).mpr (by omega)
  have hqle : (max 1 n).tdiv t ≤ max 1 n := by
    rw [Int.tdiv_eq_ediv_of_nonneg (by omega)]
    exact Int.ediv_le_self _ (by omega)
  have hs : max 1 ((max 1 n).tdiv t) = (max 1 n).tdiv t := by omega
  generalize hsd : (max 1 n).tdiv t = s at hq hqle hs
  have hm : 1 ≤ (max 1 n).tdiv s := by
    rw [Int.tdiv_eq_ediv_of_nonneg (by omega)]
    exact (Int.le_ediv_iff_mul_le (by omega)).mpr (by omega)
  have hmle : (max 1 n).tdiv s * s ≤ max 1 n := by
    rw [Int.tdiv_eq_ediv_of_nonneg (by omega)]
    exact Int.ediv_mul_le _ (by omega)
  obtain ⟨m, hmm⟩ : ∃ m : Nat, (max 1 n).tdiv s = m := ⟨((max 1 n).tdiv s).toNat, by omega⟩
  rw [hmm] at hm hmle
  refine ⟨m, s, by omega, by omega, ?_, ?_⟩
  · have : ((m : Int) - 1) * s = m * s - s := by ring
    by_cases h1 : n = 0
    · subst h1
      have hs1 : s = 1 := by omega
      subst hs1
      omega
    · omega
  · simp only [pretendBins, ht, hsd, hs, makeRange, Int.sub_zero, hmm, Int.toNat_natCast, List.length_map, List.length_range,
      List.map_map]
    apply List.ext_getElem?
    intro i
    by_cases hi : i < m
    · rw [List.getElem?_map, List.getElem?_range hi, Option.map_some]
      apply List.getElem?_zip_eq_some.mpr
      refine ⟨by simp [hi], ?_⟩
      rw [List.getElem?_set]
      by_cases hl : i + 1 = m
      · rw [if_pos (by omega), if_pos (by simp; omega), if_pos hl]
      · rw [if_neg (by omega), if_neg hl]
        simp [hi]
        ring
    · rw [List.getElem?_eq_none (by simp; omega), List.getElem?_eq_none (by simp; omega)]

/-- The boundaries of the ranges. -/
def cut (m : Nat) (s n : Int) (i : Nat) : Int := if i = m then n else i * s

theorem pretendBins_cut (n : Int) (hn : 0 ≤ n) : ∃ (m : Nat) (s : Int), 0 < m ∧
    (∀ i, i < m → cut m s n i ≤ cut m s n (i + 1)) ∧ cut m s n 0 = 0 ∧ cut m s n m = n ∧
    (∀ i, i ≤ m → 0 ≤ cut m s n i) ∧
    pretendBins n = (List.range m).map fun i : Nat => (cut m s n i, cut m s n (i + 1)) := by
  obtain ⟨m, s, hm, hs, hle, he⟩ := pretendBins_eq n hn
  refine ⟨m, s, hm, ?_, ?_, ?_, ?_, ?_⟩
  · intro i hi
    have e : ((i + 1 : Nat) : Int) * s = i * s + s := by push_cast; ring
    simp only [cut, if_neg (by omega : ¬ i = m)]
    split
    · rename_i h
      have : (m : Int) - 1 = i := by omega
      rw [this] at hle; exact hle
    · omega
  · simp only [cut]; rw [if_neg (by omega)]; simp
  · simp [cut]
  · intro i _
    simp only [cut]
    split
    · exact hn
    · exact Int.mul_nonneg (by omega) (by omega)
  · rw [he]
    apply List.map_congr_left
    intro i hi
    rw [List.mem_range] at hi
    simp only [cut, if_neg (by omega : ¬ i = m)]

theorem intRange_append' {a b c : Int} (h1 : a ≤ b) (h2 : b ≤ c) : intRange a b ++ intRange b c = intRange a c := by
  obtain ⟨m, hm⟩ : ∃ m : Nat, (m : Int) = b - a := ⟨(b - a).toNat, by omega⟩
  obtain ⟨n, hn⟩ : ∃ n : Nat, (n : Int) = c - b := ⟨(c - b).toNat, by omega⟩
  have e1 : (b - a).toNat = m := by omega
  have e2 : (c - b).toNat = n := by omega
  have e3 : (c - a).toNat = m + n := by omega
  simp only [intRange, e1, e2, e3, List.range_add, List.map_append, List.map_map]
  congr 1
  apply List.map_congr_left
  intro x _
  simp only [Function.comp]
  omega

/-- **C51**: for every number of rows the ranges are well-formed and list every row exactly once, in order. -/
theorem C51_ranges_partition (n : Int) (hn : 0 ≤ n) :
    (∀ p ∈ pretendBins n, 0 ≤ p.1 ∧ p.1 ≤ p.2 ∧ p.2 ≤ n) ∧
    (pretendBins n).flatMap (fun p => intRange p.1 p.2) = intRange 0 n := by
  obtain ⟨m, s, hm, hmono, h0, hend, hpos, he⟩ := pretendBins_cut n hn
  have hmono' : ∀ k, ∀ i, i + k ≤ m → cut m s n i ≤ cut m s n (i + k) := by
    intro k
    induction k with
    | zero => intro i _; exact le_refl _
    | succ k ih => intro i hi; exact le_trans (ih i (by omega)) (hmono (i + k) (by omega))
  refine ⟨?_, ?_⟩
  · intro p hp
    rw [he, List.mem_map] at hp
    obtain ⟨i, hi, rfl⟩ := hp
    rw [List.mem_range] at hi
    refine ⟨hpos i (by omega), hmono i hi, ?_⟩
    have := hmono' (m - (i + 1)) (i + 1) (by omega)
    rwa [show i + 1 + (m - (i + 1)) = m by omega, hend] at this
  · rw [he, List.flatMap_map]
    have key : ∀ k, k ≤ m → (List.range k).flatMap (fun i => intRange (cut m s n i) (cut m s n (i + 1))) =
        intRange (cut m s n 0) (cut m s n k) := by
      intro k
      induction k with
      | zero => intro _; simp [intRange]
      | succ k ih =>
        intro hk
        have h1 := hmono' k 0 (by omega)
        rw [Nat.zero_add] at h1
        rw [List.range_succ, List.flatMap_append, ih (by omega), List.flatMap_cons, List.flatMap_nil, List.append_nil,
          intRange_append' h1 (hmono k (by omega))]
    rw [key m le_rfl, h0, hend]

example := C51_ranges_partition 100001 (by decide)

theorem flatten_rows {β : Type} (table : List β) :
    ((pretendBins table.length).map fun p => rows table p.1 p.2).flatten = table := by
  obtain ⟨m, s, hm, hmono, h0, hend, hpos, he⟩ := pretendBins_cut table.length (by omega)
  rw [he, List.map_map]
  have key : ∀ k, k ≤ m → ((List.range k).map ((fun p : Int × Int => rows table p.1 p.2) ∘
      fun i => (cut m s table.length i, cut m s table.length (i + 1)))).flatten = table.take (cut m s table.length k).toNat := by
    intro k
    induction k with
    | zero => intro _; rw [h0]; simp
    | succ k ih =>
      intro hk
      rw [List.range_succ, List.map_append, List.flatten_append, ih (by omega)]
      simp only [List.map_cons, List.map_nil, List.flatten_cons, List.flatten_nil, List.append_nil, Function.comp, rows]
      have h1 := hmono k (by omega)
      have h2 := hpos k (by omega)
      obtain ⟨d, hd⟩ : ∃ d : Nat, (cut m s table.length (k + 1)).toNat = (cut m s table.length k).toNat + d :=
        ⟨(cut m s table.length (k + 1)).toNat - (cut m s table.length k).toNat, by omega⟩
      rw [hd]
      have := List.take_append_drop (cut m s table.length k).toNat
        (table.take ((cut m s table.length k).toNat + d))
      rw [List.take_take, Nat.min_eq_left (by omega)] at this
      exact this
  rw [key m le_rfl, hend]
  simp

theorem histogramParts_eq (lin : List α → Bool) (guess : List α → α → Int) (edges : List α) (h : Ascending edges)
    (hlin : lin edges = true → edges ≠ [] ∧ GuessOk edges (guess edges)) :
    ∀ (parts : List (List (Option α × W))) (acc : List W), acc.length = edges.length - 1 →
    histogramParts lin guess edges parts acc = .ok (histPure edges parts.flatten acc) := by
  intro parts
  induction parts with
  | nil => intro acc _; rfl
  | cons part parts ih =>
    intro acc hacc
    simp only [histogramParts, histogram_eq lin guess edges h hlin part, List.flatten_cons]
    have hstep : addHist acc (histPure edges part (List.replicate (edges.length - 1) 0)) = histPure edges part acc := by
      apply List.ext_getElem?
      intro i
      simp only [addHist]
      by_cases hi : i < edges.length - 1
      · have ha : acc[i]? = some (acc[i]'(by omega)) := List.getElem?_eq_getElem (by omega)
        rw [histPure_get h part acc i _ ha, List.getElem?_zipWith, ha,
          histPure_get h part _ i 0 (by rw [List.getElem?_replicate]; simp [hi])]
        simp
      · rw [List.getElem?_eq_none (by simp [histPure_length]; omega),
          List.getElem?_eq_none (by rw [histPure_length]; omega)]
    rw [hstep, ih _ (by rw [histPure_length, hacc])]
    simp only [histPure, List.foldl_append]

/-- **C19** (threading): a table gives the same histogram whether or not it is split for threading, that of all its rows with the weights of
masked rows set to zero. -/
theorem C19_table (lin : List α → Bool) (guess : List α → α → Int) (edges : List α) (h : Ascending edges)
    (hlin : lin edges = true → edges ≠ [] ∧ GuessOk edges (guess edges)) (table : List (Option α × W × Bool)) :
    histogramTable lin guess edges table =
      histogram lin guess edges (table.map fun r => (r.1, if r.2.2 then 0 else r.2.1)) := by
  simp only [histogramTable]
  split
  · rw [histogramParts_eq lin guess edges h hlin _ _ (by simp), histogram_eq lin guess edges h hlin]
    have := flatten_rows (table.map fun r : Option α × W × Bool => (r.1, if r.2.2 then (0 : W) else r.2.1))
    rw [List.length_map] at this
    rw [this]
  · rfl

example := C19_table (W := Int) (fun _ => false) (fun _ _ => 0) [(0 : Int), 2, 3] (by unfold Ascending; decide) (by simp)
  [(some 1, 5, false), (some 2, 7, true), (none, 100, false)]

example : histogram (fun _ => false) (fun _ _ => 0) [(0 : Int), 2, 3]
    [(some 1, (5 : Int)), (some 2, 7), (none, 100), (some 0, 1), (some 3, 50)] = .ok [6, 7] := by decide

example : pretendBins 100001 = [(0, 50000), (50000, 100001)] ∧ pretendBins 0 = [(0, 0)] ∧ pretendBins 7 = [(0, 7)] := by
  decide

/-- The fast path on equidistant edges with the exact guess. -/
example : histogram Numeric.islinspaceInt (fun e v => v - e.headD 0) [(2 : Int), 3, 4]
    [(some 2, (5 : Int)), (some 3, 7), (some 4, 1), (some 2, 10)] = .ok [15, 7] ∧
    Ascending [(2 : Int), 3, 4] ∧ GuessOk [(2 : Int), 3, 4] (fun v => v - 2) := by
  refine ⟨by decide, by unfold Ascending; decide, ?_⟩
  rintro v i ⟨v', lo, hi, e, h1, h2, h3, h4⟩
  cases e
  dsimp only
  rcases i with _ | _ | _ | _ <;> simp at h1 h2 <;> omega

end Scipp.Props
