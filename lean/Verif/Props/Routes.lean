import Verif.Props.Histogram
import Verif.Props.BinTable
import Verif.Props.Rebin
/-!
C97: the same histogram is obtained by histogramming a table, by binning it and summing the weights of each bin, and by
histogramming with finer edges and rebinning.
-/
namespace Scipp.Props
open Scipp Spec Binning BinTable

section Table
variable {α : Type} [LinearOrder α] {γ : Type} [DecidableEq γ] {E : Type} {W : Type} [AddCommMonoid W]

/-- Sum of the weights of the events of a bin. -/
def binWeight (weight : E → W) (bin : List E) : W := (bin.map weight).sum

private theorem weightWhere_map (p : Option α → Prop) [DecidablePred p] (coord : E → Option α) (weight : E → W) (l : List E) :
    weightWhere p (l.map fun e => (coord e, weight e)) = binWeight weight (l.filter fun e => decide (p (coord e))) := by
  simp only [weightWhere, binWeight, List.filter_map, List.map_map]
  rfl

private theorem histogram_list (lin : List α → Bool) (guess : List α → α → Int) (edges : List α) (h : Ascending edges)
    (hlin : lin edges = true → edges ≠ [] ∧ GuessOk edges (guess edges)) (events : List (Option α × W)) :
    histogram lin guess edges events = .ok ((List.range (edges.length - 1)).map fun i => weightWhere (InBin edges i) events) := by
  obtain ⟨data, h1, h2, h3, -⟩ := C19_histogram_partial lin guess edges h hlin events
  rw [h1]
  congr 1
  apply List.ext_getElem?
  intro i
  by_cases hi : i < data.length
  · rw [h3 i hi, List.getElem?_map, List.getElem?_range (by omega)]
    rfl
  · rw [List.getElem?_eq_none (by omega), List.getElem?_eq_none (by simp; omega)]

private theorem positions_one (n : Nat) : positions [n] = (List.range n).map fun i => [i] := by
  simp only [positions, List.map_cons, List.map_nil]
  induction List.range n with
  | nil => rfl
  | cons a l ih => simp [ih]

private theorem positions_snoc (ns : List Nat) (n : Nat) :
    positions (ns ++ [n]) = (positions ns).flatMap fun p => (List.range n).map fun i => p ++ [i] := by
  induction ns with
  | nil => rw [List.nil_append, positions_one]; simp [positions]
  | cons m ns ih =>
    simp only [List.cons_append, positions, ih, List.flatMap_assoc, List.map_flatMap, List.flatMap_map, List.map_map]
    rfl

private theorem belongs_snoc (axes : List (Axis α γ E)) (a : Axis α γ E) (p : List Nat) (i : Nat) (e : E) :
    Belongs (axes ++ [a]) (p ++ [i]) e ↔ Belongs axes p e ∧ a.Has i e := by
  unfold Belongs
  induction axes generalizing p with
  | nil =>
    cases p with
    | nil => simp
    | cons q p =>
      constructor
      · intro h
        cases h with
        | cons _ h => cases p <;> cases h
      · rintro ⟨h, -⟩
        cases h
  | cons b axes ih =>
    cases p with
    | nil =>
      constructor
      · intro h
        cases h with
        | cons _ h => cases axes <;> cases h
      · rintro ⟨h, -⟩
        cases h
    | cons q p =>
      simp only [List.cons_append, List.forall₂_cons, ih, and_assoc]

/-- Binning the table and summing the weights of every bin gives the histogram. -/
theorem C97_bin_then_sum (lin : List α → Bool) (guess : List α → α → Int) (edges : List α) (h : Ascending edges) (hl : 2 ≤ edges.length)
    (hlin : lin edges = true → GuessOk edges (guess edges)) (table : List E) (coord : E → Option α) (weight : E → W) (root : Nat → Nat)
    (linspace : Bool) (guess' : α → Int) (hg : linspace = true → GuessOk edges guess') (order1 : Mapped (Int × E) → List (Int × (Int × E)))
    (order : Mapped E → List (Int × E)) (hroot : ∀ k, 0 < k → 0 < root k) (ho1 : ∀ m, (order1 m).Perm m.writes.flatten)
    (ho : ∀ m, (order m).Perm m.writes.flatten) :
    ∃ bins, binTable (γ := γ) root [.bin edges linspace guess' coord] table order1 order = .ok bins ∧
      histogram lin guess edges (table.map fun e => (coord e, weight e)) = .ok (bins.map (binWeight weight)) := by
  classical
  have hne : edges ≠ [] := by rintro rfl; simp at hl
  refine ⟨_, C78_table root _ table order1 order hroot ?_ ho1 ho, ?_⟩
  · intro a ha
    obtain rfl := List.mem_singleton.1 ha
    exact ⟨h, hl, hg⟩
  · rw [histogram_list lin guess edges h (fun x => ⟨hne, hlin x⟩)]
    congr 1
    simp only [List.map_cons, List.map_nil, positions_one, List.map_map, Axis.size]
    refine List.map_congr_left fun i _ => ?_
    rw [weightWhere_map]
    simp only [Function.comp]
    congr 1
    refine List.filter_congr fun e _ => ?_
    simp [Belongs, Axis.Has]

/-- Binning along any dimensions, then histogramming every bin, is binning along one more dimension and summing the weights. -/
theorem C97_bins_histogram (lin : List α → Bool) (guess : List α → α → Int) (edges : List α) (h : Ascending edges) (hl : 2 ≤ edges.length)
    (hlin : lin edges = true → GuessOk edges (guess edges)) (axes : List (Axis α γ E)) (table : List E) (hax : ∀ a ∈ axes, a.Ok table)
    (coord : E → Option α) (weight : E → W) (root : Nat → Nat)
    (linspace : Bool) (guess' : α → Int) (hg : linspace = true → GuessOk edges guess') (order1 : Mapped (Int × E) → List (Int × (Int × E)))
    (order : Mapped E → List (Int × E)) (hroot : ∀ k, 0 < k → 0 < root k) (ho1 : ∀ m, (order1 m).Perm m.writes.flatten)
    (ho : ∀ m, (order m).Perm m.writes.flatten) :
    ∃ bins rows all, binTable root axes table order1 order = .ok bins ∧
      bins.mapM (fun b => histogram lin guess edges (b.map fun e => (coord e, weight e))) = .ok rows ∧
      binTable root (axes ++ [.bin edges linspace guess' coord]) table order1 order = .ok all ∧
      rows.flatten = all.map (binWeight weight) := by
  classical
  have hne : edges ≠ [] := by rintro rfl; simp at hl
  refine ⟨_, _, _, C78_table root _ table order1 order hroot hax ho1 ho,
    mapM_ok_map _ _ _ fun b _ => histogram_list lin guess edges h (fun x => ⟨hne, hlin x⟩) _,
    C78_table root _ table order1 order hroot ?_ ho1 ho, ?_⟩
  · intro a ha
    rcases List.mem_append.1 ha with ha | ha
    · exact hax a ha
    · obtain rfl := List.mem_singleton.1 ha
      exact ⟨h, hl, hg⟩
  · simp only [List.map_append, List.map_cons, List.map_nil, positions_snoc, List.map_flatMap, List.map_map, Axis.size]
    rw [List.flatMap_def]
    congr 1
    refine List.map_congr_left fun p _ => ?_
    simp only [Function.comp]
    refine List.map_congr_left fun i _ => ?_
    rw [weightWhere_map, List.filter_filter]
    congr 1
    refine List.filter_congr fun e _ => ?_
    rw [← Bool.decide_and]
    exact decide_eq_decide.2 (by rw [belongs_snoc]; exact And.comm)

/-- Binning with finer edges, then with the edges, and summing the weights of every bin gives the histogram with the edges. -/
theorem C97_finer_bins (lin : List α → Bool) (guess : List α → α → Int) (root : Nat → Nat) (guess' : List α → α → Int) (fine edges : List α)
    (linspace linspace' : Bool) (guess'' guess''' : α → Int) (coord : E → Option α) (weight : E → W) (table : List E)
    (order1 : Mapped (Int × E) → List (Int × (Int × E))) (order : Mapped E → List (Int × E)) (hroot : ∀ k, 0 < k → 0 < root k)
    (hfine : fine.Pairwise (· < ·)) (hfl : 2 ≤ fine.length) (hs : Ascending edges) (hl : 2 ≤ edges.length)
    (hlin : lin edges = true → GuessOk edges (guess edges))
    (hcover : ∀ e ∈ table, ∀ i, InBin edges i (coord e) → ∃ k, InBin fine k (coord e)) (hg : linspace = true → GuessOk fine guess'')
    (hguess : linspace' = true → GuessOk edges guess''' ∧ ∀ b e, GuessOk (subEdges edges b e) (guess' (subEdges edges b e)))
    (ho1 : ∀ m, (order1 m).Perm m.writes.flatten) (ho : ∀ m, (order m).Perm m.writes.flatten) :
    ∃ bins twice, binTable (γ := γ) root [.bin fine linspace guess'' coord] table order1 order = .ok bins ∧
      rebinData (γ := γ) guess' edges linspace' guess''' coord [] fine [bins] order = .ok twice ∧
      histogram lin guess edges (table.map fun e => (coord e, weight e)) = .ok (twice.map (binWeight weight)) := by
  obtain ⟨bins, twice, once, h1, h2, h3, h4⟩ := C78_finer_first (γ := γ) root guess' fine edges linspace linspace' guess'' guess''' coord table
    order1 order hroot hfine hfl hs hl hcover hg hguess ho1 ho
  obtain ⟨once', h5, h6⟩ := C97_bin_then_sum (γ := γ) lin guess edges hs hl hlin table coord weight root linspace' guess''' (fun x => (hguess x).1)
    order1 order hroot ho1 ho
  obtain rfl : once = once' := by rw [h3] at h5; injection h5
  refine ⟨bins, twice, h1, h2, ?_⟩
  rw [h6]
  congr 1
  clear h1 h2 h3 h5 h6
  induction h4 with
  | nil => rfl
  | cons hp _ ih =>
    rw [List.map_cons, List.map_cons, ih]
    congr 1
    exact ((hp.map weight).sum_eq).symm

/-- The order of the rows of the table does not matter, and the histogram of two tables one after the other is the sum of their
histograms. -/
theorem C97_tables (lin : List α → Bool) (guess : List α → α → Int) (edges : List α) (h : Ascending edges)
    (hlin : lin edges = true → edges ≠ [] ∧ GuessOk edges (guess edges)) (a b : List (Option α × W)) :
    (a.Perm b → histogram lin guess edges a = histogram lin guess edges b) ∧
    ∃ x y, histogram lin guess edges a = .ok x ∧ histogram lin guess edges b = .ok y ∧
      histogram lin guess edges (a ++ b) = .ok (List.zipWith (· + ·) x y) := by
  simp only [histogram_list lin guess edges h hlin]
  constructor
  · intro hp
    congr 1
    refine List.map_congr_left fun i _ => ?_
    exact ((hp.filter _).map _).sum_eq
  · refine ⟨_, _, rfl, rfl, ?_⟩
    congr 1
    rw [List.zipWith_map, List.zipWith_self]
    refine List.map_congr_left fun i _ => ?_
    exact weightWhere_append _ _ _

/-- Bins `from` to `to` of the histogram are the histogram with edges `from` to `to` inclusive. -/
theorem C97_slice (lin : List α → Bool) (guess : List α → α → Int) (edges : List α) (h : Ascending edges) (start stop : Nat) (h1 : start ≤ stop)
    (h2 : stop < edges.length) (hlin : lin edges = true → edges ≠ [] ∧ GuessOk edges (guess edges)) (part : List α)
    (hp : part = (edges.drop start).take (stop - start + 1)) (hlin' : lin part = true → part ≠ [] ∧ GuessOk part (guess part))
    (events : List (Option α × W)) :
    ∃ data, histogram lin guess edges events = .ok data ∧
      histogram lin guess part events = .ok ((data.drop start).take (stop - start)) := by
  have hpa : Ascending part := by
    rw [hp]
    exact List.Pairwise.sublist ((List.take_sublist _ _).trans (List.drop_sublist _ _)) h
  refine ⟨_, histogram_list lin guess edges h hlin events, ?_⟩
  rw [histogram_list lin guess part hpa hlin']
  have hlen : part.length = stop - start + 1 := by rw [hp]; simp; omega
  have hget : ∀ k, k ≤ stop - start → part[k]? = edges[start + k]? := by
    intro k hk
    rw [hp, List.getElem?_take_of_lt (by omega), List.getElem?_drop]
  congr 1
  apply List.ext_getElem?
  intro i
  by_cases hi : i < stop - start
  · rw [List.getElem?_take_of_lt hi, List.getElem?_drop, List.getElem?_map, List.getElem?_map, List.getElem?_range (by omega), List.getElem?_range (by omega)]
    simp only [Option.map_some]
    congr 1
    simp only [weightWhere]
    congr 2
    refine List.filter_congr fun e _ => decide_eq_decide.2 ?_
    simp only [InBin, hget i (by omega), hget (i + 1) (by omega), Nat.add_assoc]
  · rw [List.getElem?_eq_none (by simp; omega), List.getElem?_eq_none (by simp; omega)]

end Table

section Rebin
open Scipp.Rebin
variable {K : Type} [Field K] [LinearOrder K] [IsStrictOrderedRing K]

private theorem getD_get {β : Type} {l : List β} {d : β} {i : Nat} (h : i < l.length) : l.getD i d = l[i] := by
  simp [List.getD, h]

private theorem overlap_add {a b c d e : K} (hab : a ≤ b) (h1 : c ≤ d) (h2 : d ≤ e) :
    overlapLength a b c d + overlapLength a b d e = overlapLength a b c e := by
  simp only [overlapLength, min_def, max_def]
  split_ifs <;> linarith

private theorem overlap_self (a b c : K) (hab : a ≤ b) : overlapLength a b c c = 0 := by
  simp only [overlapLength, min_def, max_def]
  split_ifs <;> linarith

private theorem overlap_Ico {a b : K} (hab : a ≤ b) {x : List K} (hx : Increasing x) (lo : Nat) : ∀ m : Nat, lo + m < x.length →
    ∑ k ∈ Finset.Ico lo (lo + m), overlapLength a b (x.getD k 0) (x.getD (k + 1) 0) = overlapLength a b (x.getD lo 0) (x.getD (lo + m) 0)
  | 0, _ => by simp [overlap_self _ _ _ hab]
  | m + 1, h => by
    rw [← Nat.add_assoc, Finset.sum_Ico_succ_top (by omega), overlap_Ico hab hx lo m (by omega)]
    exact overlap_add hab (hx.le (by omega) (by omega)) (hx.le (by omega) (by omega))

/-- A new bin made of whole old bins gets the sum of their contents. -/
private theorem rebinned_sub {xnew xold data : List K} (ho : Increasing xold) {j lo hi : Nat} (hlh : lo ≤ hi) (hh : hi < xold.length)
    (h1 : xnew.getD j 0 = xold.getD lo 0) (h2 : xnew.getD (j + 1) 0 = xold.getD hi 0) :
    rebinned xnew xold data j = ∑ k ∈ Finset.Ico lo hi, data.getD k 0 := by
  have hsub : Finset.Ico lo hi ⊆ Finset.range (xold.length - 1) := by
    intro k hk
    rw [Finset.mem_Ico] at hk
    rw [Finset.mem_range]
    omega
  show ∑ i ∈ Finset.range (xold.length - 1), contrib xnew xold data i j = _
  rw [← Finset.sum_subset hsub]
  · refine Finset.sum_congr rfl fun k hk => ?_
    rw [Finset.mem_Ico] at hk
    refine contrib_full xnew xold data k j (ho _ _ (by omega) (by omega)) ?_ ?_
    · rw [h1]; exact ho.le hk.1 (by omega)
    · rw [h2]; exact ho.le (by omega) (by omega)
  · intro k hk hk'
    rw [Finset.mem_range] at hk
    rw [Finset.mem_Ico] at hk'
    by_cases hlo : lo ≤ k
    · refine contrib_zero_of_ge xnew xold data k j ?_
      rw [h2]; exact ho.le (by omega) (by omega)
    · refine contrib_zero_of_le xnew xold data k j ?_
      rw [h1]; exact ho.le (by omega) (by omega)

private theorem sub_index {x y : List K} (hx : Increasing x) (hy : Increasing y) (hsub : ∀ v ∈ y, v ∈ x) {j : Nat} (hj : j + 1 < y.length) :
    ∃ lo hi, lo ≤ hi ∧ hi < x.length ∧ y.getD j 0 = x.getD lo 0 ∧ y.getD (j + 1) 0 = x.getD hi 0 := by
  have hmem : ∀ i, i < y.length → ∃ k, k < x.length ∧ y.getD i 0 = x.getD k 0 := by
    intro i hi
    obtain ⟨k, hk, e⟩ := List.mem_iff_getElem.1 (hsub _ (List.getElem_mem hi))
    refine ⟨k, hk, ?_⟩
    rw [getD_get hi, getD_get hk, e]
  obtain ⟨lo, hlo, e1⟩ := hmem j (by omega)
  obtain ⟨hi, hhi, e2⟩ := hmem (j + 1) hj
  refine ⟨lo, hi, ?_, hhi, e1, e2⟩
  by_contra hc
  have h1 := hx.le (show hi ≤ lo by omega) hlo
  have h2 := hy j (j + 1) (by omega) hj
  rw [e1, e2] at h2
  exact absurd h2 (not_lt.2 h1)

private theorem weight_Ico {x : List K} (hx : Increasing x) (lo : Nat) (events : List (Option K × K)) : ∀ m : Nat, lo + m < x.length →
    ∑ k ∈ Finset.Ico lo (lo + m), weightWhere (InBin x k) events = weightWhere (InRange (x.getD lo 0) (x.getD (lo + m) 0)) events
  | 0, _ => by
    have : ∀ e ∈ events, ¬ (decide (InRange (x.getD lo 0) (x.getD (lo + 0) 0) e.1) = true) := by
      intro e _ h
      obtain ⟨v, -, h1, h2⟩ := of_decide_eq_true h
      exact absurd (lt_of_le_of_lt h1 h2) (lt_irrefl _)
    rw [weightWhere, List.filter_eq_nil_iff.2 this]
    simp
  | m + 1, h => by
    rw [← Nat.add_assoc, Finset.sum_Ico_succ_top (by omega), weight_Ico hx lo events m (by omega)]
    have ha : x.getD lo 0 ≤ x.getD (lo + m) 0 := hx.le (by omega) (by omega)
    have hb : x.getD (lo + m) 0 ≤ x.getD (lo + m + 1) 0 := hx.le (by omega) (by omega)
    have hin : ∀ c : Option K, InBin x (lo + m) c ↔ InRange (x.getD (lo + m) 0) (x.getD (lo + m + 1) 0) c := by
      intro c
      rw [getD_get (show lo + m < x.length by omega), getD_get (show lo + m + 1 < x.length by omega)]
      constructor
      · rintro ⟨v, a, b, h1, h2, h3, h4, h5⟩
        rw [List.getElem?_eq_getElem (by omega)] at h2 h3
        cases h2; cases h3
        exact ⟨v, h1, h4, h5⟩
      · rintro ⟨v, h1, h4, h5⟩
        exact ⟨v, _, _, h1, List.getElem?_eq_getElem (by omega), List.getElem?_eq_getElem (by omega), h4, h5⟩
    induction events with
    | nil => simp [weightWhere]
    | cons e events ih =>
      simp only [weightWhere_cons]
      rw [← ih]
      have key : ((if InRange (x.getD lo 0) (x.getD (lo + m) 0) e.1 then e.2 else 0) + if InBin x (lo + m) e.1 then e.2 else 0) =
          if InRange (x.getD lo 0) (x.getD (lo + m + 1) 0) e.1 then e.2 else 0 := by
        simp only [hin]
        cases hc : e.1 with
        | none => simp [InRange]
        | some v =>
          simp only [InRange, Option.some.injEq, exists_eq_left']
          clear ih hin hc
          generalize x.getD lo 0 = a at ha ⊢
          generalize x.getD (lo + m) 0 = b at ha hb ⊢
          generalize x.getD (lo + m + 1) 0 = c at hb ⊢
          by_cases c1 : a ≤ v <;> by_cases c2 : v < b
          · simp [c1, c2, lt_of_lt_of_le c2 hb, not_le.2 c2]
          · simp [c1, c2, not_lt.1 c2]
          · simp [c1, not_le.2 c2]
          · exact absurd (ha.trans (not_lt.1 c2)) c1
      rw [← key]
      ring

private theorem increasing_ascending {x : List K} (h : Increasing x) : Ascending x := by
  unfold Ascending
  rw [List.pairwise_iff_getElem]
  intro i j hi hj hij
  have := h i j hij hj
  rw [getD_get hi, getD_get hj] at this
  exact this.le

/-- Rebinning a histogram to edges that are among its edges gives the histogram with those edges. Missing: repeated edges, which
`histogram` accepts (`C97_wrong_for_repeated_edges`). -/
theorem C97_histogram_rebin_partial (lin : List K → Bool) (guess : List K → K → Int) (fine coarse : List K) (hf : Increasing fine) (hc : Increasing coarse)
    (hsub : ∀ v ∈ coarse, v ∈ fine) (hne : fine ≠ []) (hlf : lin fine = true → GuessOk fine (guess fine))
    (hlc : lin coarse = true → coarse ≠ [] ∧ GuessOk coarse (guess coarse)) (events : List (Option K × K)) :
    ∃ data counts, histogram lin guess fine events = .ok data ∧ histogram lin guess coarse events = .ok counts ∧
      rebin lt' coarse fine (data.map some) = counts.map some := by
  refine ⟨_, _, histogram_list lin guess fine (increasing_ascending hf) (fun x => ⟨hne, hlf x⟩) events,
    histogram_list lin guess coarse (increasing_ascending hc) hlc events, ?_⟩
  have hpos := List.length_pos_of_ne_nil hne
  rw [C27_overlap coarse fine _ hc hf (by simp; omega), List.map_map]
  refine List.map_congr_left fun j hj => ?_
  rw [List.mem_range] at hj
  simp only [Function.comp]
  obtain ⟨lo, hi, h1, h2, h3, h4⟩ := sub_index hf hc hsub (j := j) (by omega)
  rw [rebinned_sub hf h1 h2 h3 h4]
  congr 1
  obtain ⟨m, rfl⟩ := Nat.exists_eq_add_of_le h1
  have : ∀ k ∈ Finset.Ico lo (lo + m), ((List.range (fine.length - 1)).map fun i => weightWhere (InBin fine i) events).getD k 0 =
      weightWhere (InBin fine k) events := by
    intro k hk
    rw [Finset.mem_Ico] at hk
    rw [getD_get (by simp; omega)]
    simp
  rw [Finset.sum_congr rfl this, weight_Ico hf lo events m h2, ← h3, ← h4]
  simp only [weightWhere]
  congr 2
  refine List.filter_congr fun e _ => decide_eq_decide.2 ?_
  rw [getD_get (show j < coarse.length by omega), getD_get (show j + 1 < coarse.length by omega)]
  constructor
  · rintro ⟨v, g1, g2, g3⟩
    exact ⟨v, _, _, g1, List.getElem?_eq_getElem (by omega), List.getElem?_eq_getElem (by omega), g2, g3⟩
  · rintro ⟨v, a, b, g1, g2, g3, g4, g5⟩
    rw [List.getElem?_eq_getElem (by omega)] at g2 g3
    cases g2; cases g3
    exact ⟨v, g1, g4, g5⟩

/-- Rebinning to some edges and then to edges among those is rebinning to the latter at once, wherever the first edges are. -/
theorem C97_rebin_rebin (xold mid coarse data : List K) (ho : Increasing xold) (hm : Increasing mid) (hc : Increasing coarse)
    (hl : data.length + 1 = xold.length) (hne : mid ≠ []) (hsub : ∀ v ∈ coarse, v ∈ mid) :
    rebin lt' coarse mid (rebin lt' mid xold (data.map some)) = rebin lt' coarse xold (data.map some) := by
  have hpos := List.length_pos_of_ne_nil hne
  have e : (List.range (mid.length - 1)).map (fun j => some (rebinned mid xold data j)) =
      ((List.range (mid.length - 1)).map (rebinned mid xold data)).map some := by rw [List.map_map]; rfl
  rw [C27_overlap mid xold data hm ho hl, e, C27_overlap coarse mid _ hc hm (by simp; omega), C27_overlap coarse xold data hc ho hl]
  refine List.map_congr_left fun j hj => ?_
  rw [List.mem_range] at hj
  obtain ⟨lo, hi, h1, h2, h3, h4⟩ := sub_index hm hc hsub (j := j) (by omega)
  rw [rebinned_sub hm h1 h2 h3 h4]
  congr 1
  obtain ⟨m, rfl⟩ := Nat.exists_eq_add_of_le h1
  have : ∀ k ∈ Finset.Ico lo (lo + m), ((List.range (mid.length - 1)).map (rebinned mid xold data)).getD k 0 = rebinned mid xold data k := by
    intro k hk
    rw [Finset.mem_Ico] at hk
    rw [getD_get (by simp; omega)]
    simp
  rw [Finset.sum_congr rfl this]
  unfold rebinned
  rw [Finset.sum_comm]
  refine Finset.sum_congr rfl fun i hi => ?_
  rw [Finset.mem_range] at hi
  rw [← Finset.mul_sum, ← Finset.sum_div, overlap_Ico (ho.le (by omega) (by omega)) hm lo m h2, h3, h4]

/-- With a repeated edge the histogram is right, but rebinning it gives NaN. -/
theorem C97_wrong_for_repeated_edges :
    histogram (fun _ => false) (fun _ _ => 0) [(0 : ℚ), 1, 1, 2] [(some 0, 3), (some 1, 4)] = .ok [3, 0, 4] ∧
    histogram (fun _ => false) (fun _ _ => 0) [(0 : ℚ), 2] [(some 0, 3), (some 1, 4)] = .ok [(7 : ℚ)] ∧
    rebin lt' [(0 : ℚ), 2] [0, 1, 1, 2] [some 3, some 0, some 4] = [none] := by decide +kernel

end Rebin

private theorem rt_increasing {xs : List ℚ} (h : ∀ j < xs.length, ∀ i < j, xs.getD i 0 < xs.getD j 0) : Increasing xs :=
  fun i j hij hj => h j hj i hij

private def rtEvents : List (Int × Int) := [(5, 10), (1, 20), (0, 30), (7, 40), (1, 50)]

example := C97_bin_then_sum (γ := String) (fun _ => false) (fun _ _ => 0) [0, 1, 6] (by unfold Ascending; decide) (by decide) (by simp) rtEvents (fun e => some e.1) (·.2)
  (fun k => k) false (fun _ => 0) (by simp) (fun m => m.writes.flatten) (fun m => m.writes.flatten.reverse) (fun _ h => h) (fun _ => .refl _) (fun _ => List.reverse_perm _)

example : histogram (fun _ => false) (fun _ _ => 0) [(0 : Int), 1, 6] (rtEvents.map fun e => (some e.1, e.2)) = .ok [30, 80] ∧
    (binTable (γ := String) (fun k => k) [.bin [0, 1, 6] false (fun _ => 0) fun e => some e.1] rtEvents (fun m => m.writes.flatten) (fun m => m.writes.flatten)) =
      .ok [[(0, 30)], [(5, 10), (1, 20), (1, 50)]] := ⟨by decide +kernel, by decide +kernel⟩

example := C97_bins_histogram (γ := Int) (fun _ => false) (fun _ _ => 0) [0, 1, 6] (by unfold Ascending; decide) (by decide) (by simp) [.group [20, 50] (·.2)] rtEvents
  (by simp [Axis.Ok]) (fun e => some e.1) (·.2)
  (fun k => k) false (fun _ => 0) (by simp) (fun m => m.writes.flatten) (fun m => m.writes.flatten.reverse) (fun _ h => h) (fun _ => .refl _) (fun _ => List.reverse_perm _)

example := C97_finer_bins (γ := String) (fun _ => false) (fun _ _ => 0) (fun k => k) (fun _ _ => 0) [0, 1, 3, 6] [0, 3] false false (fun _ => 0) (fun _ => 0)
  (fun e : Int × Int => some e.1) (·.2) [(2, 10), (1, 20), (9, 30)] (fun m => m.writes.flatten)
  (fun m => m.writes.flatten) (fun _ h => h) (by decide) (by decide) (by unfold Ascending; decide) (by decide) (by simp)
  (by
    rintro ⟨x, l⟩ hx i ⟨v, lo, hi, h1, h2, h3, h4, h5⟩
    simp only [List.mem_cons, Prod.mk.injEq, List.not_mem_nil, or_false] at hx
    rcases hx with ⟨rfl, -⟩ | ⟨rfl, -⟩ | ⟨rfl, -⟩
    · exact ⟨1, 2, 1, 3, rfl, rfl, rfl, by decide, by decide⟩
    · exact ⟨1, 1, 1, 3, rfl, rfl, rfl, by decide, by decide⟩
    · injection h1 with h1
      rcases i with _ | _ | i <;> simp at h2 h3 <;> omega) (by simp) (by simp) (fun _ => .refl _) (fun _ => .refl _)

example := C97_tables (W := Int) (fun _ => false) (fun _ _ => 0) [(0 : Int), 2, 3] (by unfold Ascending; decide) (by simp)
  [(some 1, 5), (some 2, 7)] [(none, 100), (some 0, 1), (some 3, 50)]

example := C97_slice (W := Int) (fun _ => false) (fun _ _ => 0) [(0 : Int), 2, 3, 5] (by unfold Ascending; decide) 1 3 (by decide) (by decide) (by simp) [2, 3, 5] rfl (by simp)
  [(some 1, 5), (some 2, 7), (some 4, 9)]

example := C97_histogram_rebin_partial (fun _ => false) (fun _ _ => 0) [(0 : ℚ), 1, 2, 4] [0, 2, 4] (rt_increasing (by decide +kernel))
  (rt_increasing (by decide +kernel)) (by simp) (by simp) (by simp) (by simp) [(some 0, 3), (some 1, 4), (none, 9), (some 3, 5)]

example := C97_rebin_rebin [(0 : ℚ), 1, 3] [-1, (1/2 : ℚ), 2, 5] [-1, 2] [4, 6] (rt_increasing (by decide +kernel))
  (rt_increasing (by decide +kernel)) (rt_increasing (by decide +kernel)) rfl (by simp) (by simp)

end Scipp.Props
