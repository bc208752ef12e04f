import Verif.Spec.RebinVar
import Verif.Props.Rebin
import Verif.Props.Subspan
import Verif.Lemmas.Masks3
/-
Lemmas about rebinning data with several dims.
-/
namespace Scipp.Props
open Scipp Sizes Rebin
variable {K : Type} [Field K] [LinearOrder K] [IsStrictOrderedRing K]

/-- Edges and comparison belong together. -/
def Directed (less : K → K → Bool) (xnew xold : List K) : Prop :=
  (less = lt' ∧ Increasing xnew ∧ Increasing xold) ∨ (less = gt' ∧ Decreasing xnew ∧ Decreasing xold)

theorem rebinnedRow_increasing (xnew xold data : List K) (hn : Increasing xnew) (ho : Increasing xold) (j : Nat) (hj : j + 1 < xnew.length) :
    rebinnedRow xnew xold data j = rebinned xnew xold data j := by
  apply Finset.sum_congr rfl
  intro i hi
  simp only [Finset.mem_range] at hi
  have h1 := ho i (i + 1) (by omega) (by omega)
  have h2 := hn j (j + 1) (by omega) (by omega)
  rw [min_eq_left h1.le, max_eq_right h1.le, min_eq_left h2.le, max_eq_right h2.le, abs_of_pos (sub_pos.2 h1)]

theorem rebinnedRow_neg (xnew xold data : List K) (j : Nat) :
    rebinnedRow (xnew.map (- ·)) (xold.map (- ·)) data j = rebinnedRow xnew xold data j := by
  unfold rebinnedRow
  rw [List.length_map]
  apply Finset.sum_congr rfl
  intro i _
  simp only [getD_neg]
  congr 2
  · have h : ∀ a b : K, min (-a) (-b) = - max a b := fun a b => by rcases le_total a b with h | h <;> simp [h]
    have h' : ∀ a b : K, max (-a) (-b) = - min a b := fun a b => by rcases le_total a b with h | h <;> simp [h]
    simp only [h, h', overlapLength]
    congr 1
    ring
  · rw [show -xold.getD (i + 1) 0 - -xold.getD i 0 = -(xold.getD (i + 1) 0 - xold.getD i 0) by ring, abs_neg]

theorem kernel_eq (less : K → K → Bool) (xnew xold data : List K) (hd : Directed less xnew xold) (hl : data.length + 1 = xold.length) :
    rebin less xnew xold (data.map some) = (List.range (xnew.length - 1)).map fun j => some (rebinnedRow xnew xold data j) := by
  rcases hd with ⟨rfl, hn, ho⟩ | ⟨rfl, hn, ho⟩
  · rw [C27_overlap xnew xold data hn ho hl]
    apply List.map_congr_left
    intro j hj
    simp only [List.mem_range] at hj
    rw [rebinnedRow_increasing _ _ _ hn ho _ (by omega)]
  · rw [C27_descending, C27_overlap _ _ data hn.neg ho.neg (by simpa using hl), List.length_map]
    apply List.map_congr_left
    intro j hj
    simp only [List.mem_range] at hj
    rw [← rebinnedRow_neg, rebinnedRow_increasing _ _ _ hn.neg ho.neg _ (by simp; omega)]

theorem nonInner_eq (less : K → K → Bool) (xnew xold data : List K) (hd : Directed less xnew xold) (hl : data.length + 1 = xold.length)
    (hne : data ≠ []) :
    rebinNonInner less xnew xold (data.map some) = .ok ((List.range (xnew.length - 1)).map fun j => some (rebinnedRow xnew xold data j)) := by
  rw [← kernel_eq less xnew xold data hd hl]
  rcases hd with ⟨rfl, hn, ho⟩ | ⟨rfl, hn, ho⟩
  · exact C28_non_inner_partial xnew xold data hn ho hl hne
  · exact C28_descending_partial xnew xold data hn ho hl hne

/-- What old bin `i` contributes to the variance of new bin `j` in the algorithm for outer dims. -/
def contribVar (xnew xold data : List K) (i j : Nat) : K :=
  contrib xnew xold data i j * (overlapLength (xold.getD i 0) (xold.getD (i + 1) 0) (xnew.getD j 0) (xnew.getD (j + 1) 0) /
    (xold.getD (i + 1) 0 - xold.getD i 0))

theorem contribVar_zero_of_le (xnew xold data : List K) (i j : Nat) (h : xold.getD (i + 1) 0 ≤ xnew.getD j 0) :
    contribVar xnew xold data i j = 0 := by rw [contribVar, contrib_zero_of_le xnew xold data i j h, zero_mul]

theorem contribVar_zero_of_ge (xnew xold data : List K) (i j : Nat) (h : xnew.getD (j + 1) 0 ≤ xold.getD i 0) :
    contribVar xnew xold data i j = 0 := by rw [contribVar, contrib_zero_of_ge xnew xold data i j h, zero_mul]

theorem contribVar_full (xnew xold data : List K) (i j : Nat) (hlt : xold.getD i 0 < xold.getD (i + 1) 0)
    (h1 : xnew.getD j 0 ≤ xold.getD i 0) (h2 : xold.getD (i + 1) 0 ≤ xnew.getD (j + 1) 0) :
    contribVar xnew xold data i j = data.getD i 0 := by
  rw [contribVar, contrib_full xnew xold data i j hlt h1 h2, overlapLength, min_eq_left h2, max_eq_left h1, max_eq_right (by linarith),
    div_self (by linarith), mul_one]

theorem rebinnedRowVariance_increasing (xnew xold data : List K) (hn : Increasing xnew) (ho : Increasing xold) (j : Nat) (hj : j + 1 < xnew.length) :
    rebinnedRowVariance xnew xold data j = ∑ i ∈ Finset.range (xold.length - 1), contribVar xnew xold data i j := by
  apply Finset.sum_congr rfl
  intro i hi
  simp only [Finset.mem_range] at hi
  have h1 := ho i (i + 1) (by omega) (by omega)
  have h2 := hn j (j + 1) (by omega) (by omega)
  rw [min_eq_left h1.le, max_eq_right h1.le, min_eq_left h2.le, max_eq_right h2.le, abs_of_pos (sub_pos.2 h1), contribVar, contrib]
  ring

theorem rebinnedRowVariance_neg (xnew xold data : List K) (j : Nat) :
    rebinnedRowVariance (xnew.map (- ·)) (xold.map (- ·)) data j = rebinnedRowVariance xnew xold data j := by
  unfold rebinnedRowVariance
  rw [List.length_map]
  apply Finset.sum_congr rfl
  intro i _
  simp only [getD_neg]
  congr 3
  · have h : ∀ a b : K, min (-a) (-b) = - max a b := fun a b => by rcases le_total a b with h | h <;> simp [h]
    have h' : ∀ a b : K, max (-a) (-b) = - min a b := fun a b => by rcases le_total a b with h | h <;> simp [h]
    simp only [h, h', overlapLength]
    congr 1
    ring
  · rw [show -xold.getD (i + 1) 0 - -xold.getD i 0 = -(xold.getD (i + 1) 0 - xold.getD i 0) by ring, abs_neg]

theorem nonInnerVariance_increasing (xnew xold data : List K) (hn : Increasing xnew) (ho : Increasing xold) (hl : data.length + 1 = xold.length)
    (hne : data ≠ []) : rebinNonInnerVariance lt' xnew xold (data.map some) =
      .ok ((List.range (xnew.length - 1)).map fun j => some (rebinnedRowVariance xnew xold data j)) := by
  have hpos : 0 < data.length := List.length_pos_iff.mpr hne
  rw [rebinNonInnerVariance]
  apply mapM_ok_map
  intro j hj
  rw [List.mem_range] at hj
  have hnj := hn j (j + 1) (by omega) (by omega)
  have hsum : rebinnedRowVariance xnew xold data j = ∑ i ∈ Finset.range (xold.length - 1), contribVar xnew xold data i j :=
    rebinnedRowVariance_increasing xnew xold data hn ho j (by omega)
  rw [hsum]
  obtain ⟨b1, b2, b3⟩ := upperBound_spec xold ho (xnew.getD j 0)
  obtain ⟨e1, e2, e3⟩ := upperBound_spec xold ho (xnew.getD (j + 1) 0)
  simp only [accumulateBinVariance]
  generalize hB : upperBound lt' xold (xnew.getD j 0) = B at *
  generalize hE : upperBound lt' xold (xnew.getD (j + 1) 0) = E at *
  have hBE : B ≤ E := by
    by_contra hc
    have h1 := b2 E (by omega)
    have h2 := e3 E (le_refl _) (by omega)
    linarith
  by_cases hret : B = xold.length ∨ E = 0
  · rw [if_pos hret]
    congr 2
    symm
    apply Finset.sum_eq_zero
    intro i hi
    rw [Finset.mem_range] at hi
    rcases hret with h | h
    · exact contribVar_zero_of_le xnew xold data i j (b2 (i + 1) (by omega))
    · exact contribVar_zero_of_ge xnew xold data i j (le_of_lt (e3 i (by omega) (by omega)))
  · rw [if_neg hret, if_neg (by omega)]
    push Not at hret
    congr 1
    have hBl : B < xold.length := by omega
    have hE0 : 0 < E := by omega
    -- old bin where the new one begins
    have hbl : B - 1 < xold.length - 1 := by omega
    have hs1 : scale lt' (xnew.getD j 0) (xnew.getD (j + 1) 0) (xold.getD (B - 1) 0) (xold.getD (B - 1 + 1) 0) = some
        (overlapLength (xold.getD (B - 1) 0) (xold.getD (B - 1 + 1) 0) (xnew.getD j 0) (xnew.getD (j + 1) 0) /
          (xold.getD (B - 1 + 1) 0 - xold.getD (B - 1) 0)) := by
      refine scale_eq _ _ _ _ (ho _ _ (by omega) (by omega)) ?_ ?_ (le_of_lt hnj)
      · exact e2 (B - 1) (by omega)
      · by_cases hB0 : B = 0
        · subst hB0
          exact le_of_lt (b3 (0 - 1 + 1) (by omega) (by omega))
        · have := b3 B (le_refl _) hBl
          rw [show B - 1 + 1 = B by omega]; exact le_of_lt this
    have hfirst : nanAdd (some 0) (nanMul (nanMul ((data.map some).getD (B - 1) none)
        (scale lt' (xnew.getD j 0) (xnew.getD (j + 1) 0) (xold.getD (B - 1) 0) (xold.getD (B - 1 + 1) 0)))
        (scale lt' (xnew.getD j 0) (xnew.getD (j + 1) 0) (xold.getD (B - 1) 0) (xold.getD (B - 1 + 1) 0))) =
        some (contribVar xnew xold data (B - 1) j) := by
      rw [hs1, getD_data data _ (by omega)]
      simp [nanAdd, nanMul, contribVar, contrib]
    rw [hfirst]
    -- what is left out
    have hbefore : ∑ i ∈ Finset.range (B - 1), contribVar xnew xold data i j = 0 := by
      apply Finset.sum_eq_zero
      intro i hi
      rw [Finset.mem_range] at hi
      exact contribVar_zero_of_le xnew xold data i j (b2 (i + 1) (by omega))
    have hafter : ∀ c, E ≤ c → ∑ i ∈ Finset.Ico c (xold.length - 1), contribVar xnew xold data i j = 0 := by
      intro c hc
      apply Finset.sum_eq_zero
      intro i hi
      rw [Finset.mem_Ico] at hi
      exact contribVar_zero_of_ge xnew xold data i j (le_of_lt (e3 i (by omega) (by omega)))
    have hsplit : ∑ i ∈ Finset.range (xold.length - 1), contribVar xnew xold data i j =
        contribVar xnew xold data (B - 1) j + ∑ i ∈ Finset.Ico (B - 1 + 1) (xold.length - 1), contribVar xnew xold data i j := by
      rw [← Finset.sum_range_add_sum_Ico _ (show B - 1 ≤ xold.length - 1 by omega), hbefore, zero_add,
        Finset.sum_eq_sum_Ico_succ_bot hbl]
    rw [hsplit]
    have hfull : ∀ c, c ≤ E - 1 → c ≤ xold.length - 1 → ∑ i ∈ Finset.Ico (B - 1 + 1) c, contribVar xnew xold data i j =
        ∑ i ∈ Finset.Ico (B - 1 + 1) c, data.getD i 0 := by
      intro c hc hcl
      apply Finset.sum_congr rfl
      intro i hi
      rw [Finset.mem_Ico] at hi
      exact contribVar_full xnew xold data i j (ho _ _ (by omega) (by omega)) (le_of_lt (b3 i (by omega) (by omega))) (e2 (i + 1) (by omega))
    -- the bins in between
    have hmid : (if B - 1 + 1 < E - 1 then sumInto (some (contribVar xnew xold data (B - 1) j))
          (((data.map some).drop (B - 1 + 1)).take (E - 1 - (B - 1 + 1))) else some (contribVar xnew xold data (B - 1) j)) =
        some (contribVar xnew xold data (B - 1) j + ∑ i ∈ Finset.Ico (B - 1 + 1) (E - 1), contribVar xnew xold data i j) := by
      split
      · rw [← List.map_drop, ← List.map_take, sumInto_some, sum_take_drop data _ _ (by omega) (by omega), hfull _ (le_refl _) (by omega)]
      · rw [Finset.Ico_eq_empty_of_le (by omega), Finset.sum_empty, add_zero]
    rw [hmid]
    by_cases hlast : B - 1 ≠ E - 1 ∧ E < xold.length
    · rw [if_pos hlast]
      have hs2 : scale lt' (xnew.getD j 0) (xnew.getD (j + 1) 0) (xold.getD (E - 1) 0) (xold.getD (E - 1 + 1) 0) = some
          (overlapLength (xold.getD (E - 1) 0) (xold.getD (E - 1 + 1) 0) (xnew.getD j 0) (xnew.getD (j + 1) 0) /
            (xold.getD (E - 1 + 1) 0 - xold.getD (E - 1) 0)) := by
        refine scale_eq _ _ _ _ (ho _ _ (by omega) (by omega)) (e2 (E - 1) (by omega)) ?_ (le_of_lt hnj)
        exact le_of_lt (b3 (E - 1 + 1) (by omega) (by omega))
      rw [hs2, getD_data data _ (by omega)]
      have : nanAdd (some (contribVar xnew xold data (B - 1) j + ∑ i ∈ Finset.Ico (B - 1 + 1) (E - 1), contribVar xnew xold data i j))
          (nanMul (nanMul (some (data.getD (E - 1) 0)) (some (overlapLength (xold.getD (E - 1) 0) (xold.getD (E - 1 + 1) 0) (xnew.getD j 0)
            (xnew.getD (j + 1) 0) / (xold.getD (E - 1 + 1) 0 - xold.getD (E - 1) 0))))
            (some (overlapLength (xold.getD (E - 1) 0) (xold.getD (E - 1 + 1) 0) (xnew.getD j 0)
            (xnew.getD (j + 1) 0) / (xold.getD (E - 1 + 1) 0 - xold.getD (E - 1) 0)))) =
          some (contribVar xnew xold data (B - 1) j + ∑ i ∈ Finset.Ico (B - 1 + 1) (E - 1), contribVar xnew xold data i j +
            contribVar xnew xold data (E - 1) j) := by
        simp [nanAdd, nanMul, contribVar, contrib]
      rw [this]
      congr 1
      rw [← Finset.sum_Ico_consecutive _ (show B - 1 + 1 ≤ E by omega) (show E ≤ xold.length - 1 by omega), hafter E (le_refl _), add_zero,
        add_assoc]
      congr 1
      have : E = E - 1 + 1 := by omega
      conv_rhs => rw [this]
      rw [Finset.sum_Ico_succ_top (by omega)]
    · rw [if_neg hlast]
      congr 2
      by_cases hEl : E = xold.length
      · rw [hEl]
      · have : B - 1 = E - 1 := by
          by_contra hne
          exact hlast ⟨hne, by omega⟩
        rw [← this, Finset.Ico_eq_empty_of_le (by omega), Finset.sum_empty]
        by_cases hc : E ≤ B - 1 + 1
        · rw [hafter _ hc]
        · omega

theorem nonInnerVariance_eq (less : K → K → Bool) (xnew xold data : List K) (hd : Directed less xnew xold) (hl : data.length + 1 = xold.length)
    (hne : data ≠ []) :
    rebinNonInnerVariance less xnew xold (data.map some) =
      .ok ((List.range (xnew.length - 1)).map fun j => some (rebinnedRowVariance xnew xold data j)) := by
  rcases hd with ⟨rfl, hn, ho⟩ | ⟨rfl, hn, ho⟩
  · exact nonInnerVariance_increasing xnew xold data hn ho hl hne
  · have := nonInnerVariance_increasing _ _ data hn.neg ho.neg (by simpa using hl) hne
    simp only [rebinnedRowVariance_neg, List.length_map] at this
    rw [← this]
    simp only [rebinNonInnerVariance, accumulateBinVariance, upperBound_neg, scale_neg, getD_neg, List.length_map]

theorem increasing_of_steps (xs : List K) (h : ∀ i, i + 1 < xs.length → xs.getD i 0 < xs.getD (i + 1) 0) : Increasing xs := by
  intro i j hij hj
  induction j with
  | zero => omega
  | succ j ih =>
    rcases Nat.lt_succ_iff_lt_or_eq.1 hij with h1 | h1
    · exact (ih h1 (by omega)).trans (h j hj)
    · exact h1 ▸ h j hj

theorem decreasing_of_steps (xs : List K) (h : ∀ i, i + 1 < xs.length → xs.getD (i + 1) 0 < xs.getD i 0) : Decreasing xs := by
  intro i j hij hj
  induction j with
  | zero => omega
  | succ j ih =>
    rcases Nat.lt_succ_iff_lt_or_eq.1 hij with h1 | h1
    · exact (h j hj).trans (ih h1 (by omega))
    · exact h1 ▸ h j hj

theorem row_length {α : Type} (x : Var α) (dim : Dim) (n : Int) (c : Dim → Int) : (row x dim n c).length = n.toNat := by simp [row]

theorem row_getD {α : Type} (x : Var α) (dim : Dim) (n : Int) (c : Dim → Int) (i : Nat) (hi : (i : Int) < n) (a : α) :
    (row x dim n c).getD i a = x.elem (upd c dim i) := by
  have : i < n.toNat := by omega
  simp [row, List.getD, this]

theorem rowOf_length (f : (Dim → Int) → K) (dim : Dim) (n : Int) (c : Dim → Int) : (rowOf f dim n c).length = n.toNat := by simp [rowOf]

theorem rising_row {e : Edges K} {dim : Dim} {n : Int} (h : Rising e dim n) {c : Dim → Int} (hc : InDims (e.x.view.dims.filter (·.1 ≠ dim)) c) :
    Increasing (row e.x dim n c) := by
  apply increasing_of_steps
  intro i hi
  rw [row_length] at hi
  rw [row_getD _ _ _ _ _ (by omega), row_getD _ _ _ _ _ (by omega)]
  exact h c hc i (by omega) (by omega)

theorem falling_row {e : Edges K} {dim : Dim} {n : Int} (h : Falling e dim n) {c : Dim → Int} (hc : InDims (e.x.view.dims.filter (·.1 ≠ dim)) c) :
    Decreasing (row e.x dim n c) := by
  apply decreasing_of_steps
  intro i hi
  rw [row_length] at hi
  rw [row_getD _ _ _ _ _ (by omega), row_getD _ _ _ _ _ (by omega)]
  exact h c hc i (by omega) (by omega)

/-- Rows of variables with the same elements. -/
theorem row_congr {α : Type} {x y : Var α} {dims : Dims} (hw : (labels dims).Nodup) {dim : Dim} {n : Int} (hd : (dim, n) ∈ dims)
    (h : ∀ c, InDims dims c → x.elem c = y.elem c) {c : Dim → Int} (hc : InDims (dims.filter (·.1 ≠ dim)) c) : row x dim n c = row y dim n c := by
  apply List.map_congr_left
  intro i hi
  simp only [List.mem_range] at hi
  apply h
  intro d m hm
  by_cases e : d = dim
  · subst e
    have h1 := at?_of_mem hw hm
    rw [at?_of_mem hw hd] at h1
    have : n = m := by simpa using h1
    simp only [upd, if_true]; omega
  · simpa [upd, e] using hc d m (by simp [hm, e])

/-- Positions of the other dims. -/
theorem others_in {dims sub : Dims} {dim : Dim} (h : ∀ p ∈ sub, p.1 ≠ dim → p ∈ dims) {c : Dim → Int} (hc : InDims (dims.filter (·.1 ≠ dim)) c) :
    InDims (sub.filter (·.1 ≠ dim)) c := by
  intro d m hm
  simp only [List.mem_filter, decide_eq_true_eq] at hm
  exact hc d m (by simp [hm.2, h _ hm.1 hm.2])

theorem resized_others {dims : Dims} {dim : Dim} {m : Int} {c : Dim → Int} (hc : InDims (resized dims dim m) c) : InDims (dims.filter (·.1 ≠ dim)) c := by
  intro d k hk
  simp only [List.mem_filter, decide_eq_true_eq] at hk
  refine hc d k ?_
  simp only [resized, List.mem_map]
  exact ⟨(d, k), hk.1, by simp [hk.2]⟩

theorem resized_along {dims : Dims} {dim : Dim} {n m : Int} (hd : (dim, n) ∈ dims) {c : Dim → Int} (hc : InDims (resized dims dim m) c) : 0 ≤ c dim ∧ c dim < m :=
  hc dim m (by simp only [resized, List.mem_map]; exact ⟨(dim, n), hd, by simp⟩)

theorem labels_resized (dims : Dims) (dim : Dim) (m : Int) : labels (resized dims dim m) = labels dims := by
  simp only [labels, resized, List.map_map]
  apply List.map_congr_left
  intro p _
  simp only [Function.comp]
  split <;> simp_all

theorem resized_perm {a b : Dims} (h : a.Perm b) (dim : Dim) (m : Int) : (resized a dim m).Perm (resized b dim m) := h.map _

theorem resized_mid {pre post : Dims} {dim : Dim} {n m : Int} (h1 : dim ∉ labels pre) (h2 : dim ∉ labels post) :
    resized (pre ++ (dim, n) :: post) dim m = pre ++ (dim, m) :: post := by
  have key : ∀ l : Dims, dim ∉ labels l → resized l dim m = l := by
    intro l hl
    simp only [resized]
    conv_rhs => rw [← List.map_id l]
    apply List.map_congr_left
    intro p hp
    rw [if_neg (fun e : p.1 = dim => hl (e ▸ mem_labels (x := p.2) hp)), id]
  have hp := key pre h1
  have hq := key post h2
  simp only [resized] at hp hq ⊢
  rw [List.map_append, List.map_cons, hp, hq]
  simp

/-- Transposing to a given order. -/
theorem dims_transpose {s t : Dims} (hw : Sizes.WF s) (hi : Dim.invalid ∉ labels t) (hne : t ≠ []) (hp : s.Perm t) :
    Dims.transpose s (labels t) = .ok t := by
  have hl : (labels t).Perm (labels s) := (hp.symm).map _
  have heff : effOrder s (labels t) = labels t := by
    cases t with
    | nil => simp at hne
    | cons _ _ => simp [effOrder]
  rw [transpose_eff, heff]
  obtain ⟨t', ht'⟩ := transposeImpl_exists hw hi hl
  obtain ⟨h1, h2, _⟩ := transposeImpl_ok ht'
  rw [ht', eq_of_perm_labels (h2.trans hp) h1 (h1 ▸ hl.nodup_iff.2 hw.1)]

theorem filter_perm_resized {dims r : Dims} {dim : Dim} {n m : Int} (hn : (labels dims).Nodup) (hd : (dim, n) ∈ dims)
    (h : r.Perm (dims.filter (·.1 ≠ dim))) : (r ++ [(dim, m)]).Perm (resized dims dim m) := by
  obtain ⟨pre, k, post, he, hp⟩ := split_label (mem_labels hd)
  have hpost : dim ∉ labels post := by
    rw [he] at hn
    simp only [labels_append, labels_cons, List.nodup_append, List.nodup_cons] at hn
    exact hn.2.1.1
  have hf : dims.filter (·.1 ≠ dim) = pre ++ post := by
    have key : ∀ l : Dims, dim ∉ labels l → l.filter (fun p => decide (p.1 ≠ dim)) = l := by
      intro l hl
      apply List.filter_eq_self.2
      intro p hp
      simpa using fun e : p.1 = dim => hl (e ▸ mem_labels (x := p.2) hp)
    rw [he, List.filter_append, List.filter_cons, key pre hp, key post hpost]
    simp
  rw [hf] at h
  rw [he, resized_mid hp hpost]
  refine (h.append_right _).trans ?_
  rw [List.append_assoc]
  exact List.Perm.append_left _ List.perm_append_comm

/-- The dims of the output of the branch for contiguous rows. -/
theorem inner_dims {v : Data K} {dim : Dim} {n m : Int} {old new : Edges K} (hw : v.x.view.WF) (hi : Dim.invalid ∉ labels v.x.view.dims)
    (hd : (dim, n) ∈ v.x.view.dims) (ho : FitsData old dim (n + 1) v.x.view.dims) (hn : FitsData new dim (m + 1) v.x.view.dims) (hm : 0 ≤ m) :
    ∃ m1 : Dims, Dims.merge (new.x.view.dims.filter (fun p => decide (p.1 ≠ dim))) (v.x.view.dims.filter (fun p => decide (p.1 ≠ dim))) = .ok m1 ∧
      Dims.merge m1 (old.x.view.dims.filter (fun p => decide (p.1 ≠ dim))) = .ok m1 ∧ Dims.addInner m1 dim (m + 1 - 1) = .ok (m1 ++ [(dim, m)]) ∧
      m1.Perm (v.x.view.dims.filter (fun p => decide (p.1 ≠ dim))) ∧ Sizes.WF m1 := by
  have hdi : dim ≠ Dim.invalid := fun e => hi (e ▸ mem_labels hd)
  have hfw : ∀ {s : Dims}, Sizes.WF s → Sizes.WF (s.filter (fun p => decide (p.1 ≠ dim))) := fun h => sublist_WF List.filter_sublist h
  have hfi : ∀ {s : Dims}, (∀ p ∈ s, p.1 ≠ dim → p ∈ v.x.view.dims) → Dim.invalid ∉ labels (s.filter (fun p => decide (p.1 ≠ dim))) := by
    intro s hs hc
    obtain ⟨k, hk⟩ := at?_ok_of_mem_labels hc
    have := at?_ok_mem hk
    simp only [List.mem_filter, decide_eq_true_eq] at this
    exact hi (mem_labels (hs _ this.1 this.2))
  have hnw := hfw hn.wf.1
  have hvw := hfw hw.1
  have how := hfw ho.wf.1
  have hni := hfi hn.others
  have hvi := hfi (s := v.x.view.dims) (fun p hp _ => hp)
  have hsub : ∀ {s : Dims}, (∀ p ∈ s, p.1 ≠ dim → p ∈ v.x.view.dims) → ∀ p ∈ s.filter (fun p => decide (p.1 ≠ dim)), p ∈ v.x.view.dims.filter (fun p => decide (p.1 ≠ dim)) := by
    intro s hs p hp
    simp only [List.mem_filter, decide_eq_true_eq] at hp ⊢
    exact ⟨hs _ hp.1 hp.2, hp.2⟩
  obtain ⟨m1, hm1⟩ := (C02_merge_succeeds_iff _ _ hnw hvw hni hvi).2 (by
    intro d x y hx hy
    have h1 := at?_of_mem hvw.1 (hsub hn.others _ hx)
    rw [at?_of_mem hvw.1 hy] at h1
    simpa using h1.symm)
  have hm1w := Dims.merge_WF hm1
  have hcontent : ∀ p, p ∈ m1 ↔ p ∈ v.x.view.dims.filter (fun p => decide (p.1 ≠ dim)) := by
    intro p
    rw [C02_merge_content _ _ m1 hnw hvw hni hvi hm1 p.1 p.2]
    exact ⟨fun h => h.elim (hsub hn.others _) id, .inr⟩
  have hperm : m1.Perm (v.x.view.dims.filter (fun p => decide (p.1 ≠ dim))) :=
    (List.perm_ext_iff_of_nodup (List.Nodup.of_map _ hm1w.1) (List.Nodup.of_map _ hvw.1)).2 hcontent
  have hm1i : Dim.invalid ∉ labels m1 := fun h => hvi ((hperm.map _).mem_iff.1 h)
  have hm1d : dim ∉ labels m1 := fun h => by
    obtain ⟨k, hk⟩ := at?_ok_of_mem_labels ((hperm.map _).mem_iff.1 h : dim ∈ labels _)
    simpa using at?_ok_mem hk
  have hm2 : Dims.merge m1 (old.x.view.dims.filter (fun p => decide (p.1 ≠ dim))) = .ok m1 :=
    merge_of_includes hm1w how hm1i (fun p hp => (hcontent p).2 (hsub ho.others p hp))
  have hadd : Dims.addInner m1 dim (m + 1 - 1) = .ok (m1 ++ [(dim, m)]) := by
    rw [show m + 1 - 1 = m by ring]
    exact Dims.addInner_eq hm1d hm hdi
  exact ⟨m1, hm1, hm2, hadd, hperm, hm1w⟩

/-- The branch for contiguous rows refuses edges of different units. -/
theorem inner_unit {less : K → K → Bool} {v : Data K} {dim : Dim} {n m : Int} {old new : Edges K} (hw : v.x.view.WF) (hi : Dim.invalid ∉ labels v.x.view.dims)
    (hd : (dim, n) ∈ v.x.view.dims) (ho : FitsData old dim (n + 1) v.x.view.dims) (hn : FitsData new dim (m + 1) v.x.view.dims) (hm : 0 ≤ m) (hu : new.unit ≠ old.unit) :
    rebinInner less v dim old new = .error .unit := by
  obtain ⟨m1, hm1, hm2, hadd, _, _⟩ := inner_dims hw hi hd ho hn hm
  simp only [rebinInner, at?_of_mem hn.wf.1.1 hn.along, erase_eq_filter hn.wf.1.1 (mem_labels hn.along), erase_eq_filter hw.1.1 (mem_labels hd),
    erase_eq_filter ho.wf.1.1 (mem_labels ho.along), hm1, hm2, hadd, bind, Except.bind]
  rw [if_pos hu]

/-- The branch for contiguous rows applies the kernel to every row. -/
theorem inner_ok {less : K → K → Bool} {v : Data K} {dim : Dim} {n m : Int} {old new : Edges K} (hw : v.x.view.WF) (hi : Dim.invalid ∉ labels v.x.view.dims)
    (hd : (dim, n) ∈ v.x.view.dims) (hs : Adjacent v.x.view dim) (ho : FitsData old dim (n + 1) v.x.view.dims) (hoa : Adjacent old.x.view dim)
    (hn : FitsData new dim (m + 1) v.x.view.dims) (hna : Adjacent new.x.view dim) (hm : 0 ≤ m) (hu : new.unit = old.unit)
    (hv : new.hasVariances = false ∧ old.hasVariances = false)
    (ht : (new.type = .float64 ∧ old.type = .float64) ∨ (v.type = .float32 ∧ new.type = .float32 ∧ old.type = .float32)) :
    ∃ r, rebinInner less v dim old new = .ok r ∧ r.dims.Perm (resized v.x.view.dims dim m) ∧ Sizes.WF r.dims ∧
      r.unit = v.unit ∧ r.type = outType v.type ∧ r.hasVariances = v.hasVariances ∧
      ∀ c, InDims (v.x.view.dims.filter (·.1 ≠ dim)) c →
        r.elem c = ((rebin less (row new.x dim (m + 1) c) (row old.x dim (n + 1) c) ((row v.x dim n c).map Prod.fst)).getD (c dim).toNat none,
          (rebin less (row new.x dim (m + 1) c) (row old.x dim (n + 1) c) ((row v.x dim n c).map Prod.snd)).getD (c dim).toNat none) := by
  obtain ⟨sv, sv1, sv2⟩ := (C62_subspan_view v.x.view hw dim n hd).1 hs
  obtain ⟨so, so1, so2⟩ := (C62_subspan_view old.x.view ho.wf dim (n + 1) ho.along).1 hoa
  obtain ⟨sn, sn1, sn2⟩ := (C62_subspan_view new.x.view hn.wf dim (m + 1) hn.along).1 hna
  obtain ⟨m1, hm1, hm2, hadd, hperm, hm1w⟩ := inner_dims hw hi hd ho hn hm
  have htype : (outType v.type, new.type, v.type, old.type) ∈ transformArgs := by
    rcases ht with ⟨h1, h2⟩ | ⟨h1, h2, h3⟩
    · rw [h1, h2]; cases v.type <;> decide
    · rw [h1, h2, h3]; decide
  have heq : rebinInner less v dim old new = .ok (
      { dims := m1 ++ [(dim, m)]
        elem := fun c =>
          ((rebin less (readSpan new.x.buf (sn c)) (readSpan old.x.buf (so c)) ((readSpan v.x.buf (sv c)).map Prod.fst)).getD (c dim).toNat none,
           (rebin less (readSpan new.x.buf (sn c)) (readSpan old.x.buf (so c)) ((readSpan v.x.buf (sv c)).map Prod.snd)).getD (c dim).toNat none)
        hasVariances := v.hasVariances
        type := outType v.type
        unit := v.unit } : Out K) := by
    simp only [rebinInner, at?_of_mem hn.wf.1.1 hn.along, erase_eq_filter hn.wf.1.1 (mem_labels hn.along), erase_eq_filter hw.1.1 (mem_labels hd),
      erase_eq_filter ho.wf.1.1 (mem_labels ho.along), hm1, hm2, hadd, hu, sv1, so1, sn1, bind, Except.bind, htype, hv.1, hv.2]
    simp
  refine ⟨_, heq, filter_perm_resized hw.1.1 hd hperm, Dims.addInner_WF hadd hm1w, rfl, rfl, rfl, fun c hc => ?_⟩
  simp only [sn2 K new.x.buf c (others_in hn.others hc), so2 K old.x.buf c (others_in ho.others hc), sv2 _ v.x.buf c hc]

theorem one_dim {s : Dims} {dim : Dim} {n : Int} (h1 : s.length = 1) (hd : (dim, n) ∈ s) : s = [(dim, n)] := by
  match s, h1 with
  | [p], _ => simp only [List.mem_singleton] at hd; rw [hd]

/-- Edges of one dim, read from memory directly. -/
theorem rawEdges_eq {e : Edges K} {dim : Dim} {n : Int} (hw : e.x.view.WF) (hd : e.x.view.dims = [(dim, n)]) (ha : Adjacent e.x.view dim) (c : Dim → Int) :
    rawEdges e n = row e.x dim n c := by
  have hmem : (dim, n) ∈ e.x.view.dims := by rw [hd]; simp
  have h1 := (adjacent_iff hw hmem).1 ha
  apply List.map_congr_left
  intro i _
  simp only [Var.elem]
  rw [addr_row (pre := []) (post := []) hw hd c i, h1]
  simp [addrAux]

theorem slices_eq (v : Data K) (dim : Dim) (n : Int) (c : Dim → Int) : slices v dim n c = row v.x dim n c := rfl

theorem data_row {x : Var (Option K × Option K)} {dims : Dims} (hw : (labels dims).Nodup) {dim : Dim} {n : Int} (hd : (dim, n) ∈ dims)
    {f : (Dim → Int) → K} {pr : Option K × Option K → Option K} (h : ∀ c, InDims dims c → pr (x.elem c) = some (f c)) {c : Dim → Int} (hc : InDims (dims.filter (·.1 ≠ dim)) c) :
    (row x dim n c).map pr = (rowOf f dim n c).map some := by
  simp only [row, rowOf, List.map_map]
  apply List.map_congr_left
  intro i hi
  simp only [List.mem_range] at hi
  apply h
  intro d m hm
  by_cases e : d = dim
  · subst e
    have h1 := at?_of_mem hw hm
    rw [at?_of_mem hw hd] at h1
    have : n = m := by simpa using h1
    simp only [upd, if_true]; omega
  · simpa [upd, e] using hc d m (by simp [hm, e])

/-- The branch for other layouts gives the same values. -/
theorem outer_ok {less : K → K → Bool} {v : Data K} {dim : Dim} {n m : Int} {old new : Edges K} (hw : v.x.view.WF)
    (hd : (dim, n) ∈ v.x.view.dims) (hn0 : 0 < n) (ho : FitsData old dim (n + 1) v.x.view.dims) (hoa : Adjacent old.x.view dim)
    (ho1 : old.x.view.dims = [(dim, n + 1)])
    (hn : FitsData new dim (m + 1) v.x.view.dims) (hna : Adjacent new.x.view dim) (hn1 : new.x.view.dims = [(dim, m + 1)]) (hm : 0 ≤ m)
    (ht : (new.type = .float64 ∧ old.type = .float64) ∨ (v.type = .float32 ∧ new.type = .float32 ∧ old.type = .float32))
    (hdir : ∀ c, Directed less (row new.x dim (m + 1) c) (row old.x dim (n + 1) c))
    {f : (Dim → Int) → K} (hf : ∀ c, InDims v.x.view.dims c → (v.x.elem c).1 = some (f c)) :
    ∃ r, rebinOuter less v dim old new = .ok r ∧ r.dims = resized v.x.view.dims dim m ∧
      r.unit = v.unit ∧ r.type = outType v.type ∧ r.hasVariances = v.hasVariances ∧
      ∀ c, InDims (v.x.view.dims.filter (·.1 ≠ dim)) c → 0 ≤ c dim → c dim < m →
        (r.elem c).1 = some (rebinnedRow (row new.x dim (m + 1) c) (row old.x dim (n + 1) c) (rowOf f dim n c) (c dim).toNat) ∧
        ∀ w : (Dim → Int) → K, (∀ c, InDims v.x.view.dims c → (v.x.elem c).2 = some (w c)) →
          (r.elem c).2 = some (rebinnedRowVariance (row new.x dim (m + 1) c) (row old.x dim (n + 1) c) (rowOf w dim n c) (c dim).toNat) := by
  obtain ⟨pre, post, he, hp, hpost, _⟩ := split_dim hw hd
  have hlo := row_length old.x dim (n + 1)
  have hln := row_length new.x dim (m + 1)
  have hres : resize v.x.view.dims dim (m + 1 - 1) = .ok (resized v.x.view.dims dim m) := by
    rw [he, resized_mid hp hpost, show m + 1 - 1 = m by ring]
    exact Flat.resize_mid hp hm
  have hnon : ∀ (c : Dim → Int) (data : List K), data.length = n.toNat → rebinNonInner less (rawEdges new (m + 1)) (rawEdges old (n + 1)) (data.map some) =
      .ok ((List.range m.toNat).map fun j => some (rebinnedRow (row new.x dim (m + 1) c) (row old.x dim (n + 1) c) data j)) := by
    intro c data hl
    rw [rawEdges_eq hn.wf hn1 hna c, rawEdges_eq ho.wf ho1 hoa c,
      nonInner_eq less _ _ data (hdir c) (by rw [hlo, hl]; omega) (by intro e; rw [e] at hl; simp at hl; omega), hln]
    congr 3
    omega
  have hvar : ∀ (c : Dim → Int) (data : List K), data.length = n.toNat → rebinNonInnerVariance less (rawEdges new (m + 1)) (rawEdges old (n + 1)) (data.map some) =
      .ok ((List.range m.toNat).map fun j => some (rebinnedRowVariance (row new.x dim (m + 1) c) (row old.x dim (n + 1) c) data j)) := by
    intro c data hl
    rw [rawEdges_eq hn.wf hn1 hna c, rawEdges_eq ho.wf ho1 hoa c,
      nonInnerVariance_eq less _ _ data (hdir c) (by rw [hlo, hl]; omega) (by intro e; rw [e] at hl; simp at hl; omega), hln]
    congr 3
    omega
  have hzero : rebinNonInner less (rawEdges new (m + 1)) (rawEdges old (n + 1)) (List.replicate n.toNat (some 0)) =
      .ok ((List.range m.toNat).map fun j => some (rebinnedRow (row new.x dim (m + 1) fun _ => 0) (row old.x dim (n + 1) fun _ => 0) (List.replicate n.toNat 0) j)) := by
    rw [← hnon (fun _ => 0) (List.replicate n.toNat 0) (by simp), List.map_replicate]
  have hto : old.type = .float64 ∨ old.type = .float32 := by rcases ht with h | h <;> simp [h]
  have htn : new.type = old.type := by rcases ht with h | h <;> simp [h]
  have heq : rebinOuter less v dim old new = .ok (
      { dims := resized v.x.view.dims dim m
        elem := fun c =>
          (pick (rebinNonInner less (rawEdges new (m + 1)) (rawEdges old (n + 1)) ((slices v dim n c).map Prod.fst)) (c dim),
           pick (rebinNonInnerVariance less (rawEdges new (m + 1)) (rawEdges old (n + 1)) ((slices v dim n c).map Prod.snd)) (c dim))
        hasVariances := v.hasVariances
        type := outType v.type
        unit := v.unit } : Out K) := by
    simp only [rebinOuter, at?_of_mem hn.wf.1.1 hn.along, at?_of_mem hw.1.1 hd, hres, bind, Except.bind, hto, htn]
    rw [ho1, hn1]
    simp [hzero]
  refine ⟨_, heq, rfl, rfl, rfl, rfl, fun c hc h0 h1 => ?_⟩
  simp only [slices_eq]
  have : (c dim).toNat < m.toNat := by omega
  refine ⟨?_, fun w hw' => ?_⟩
  · rw [data_row hw.1.1 hd (pr := Prod.fst) hf hc, hnon c _ (rowOf_length f dim n c)]
    simp [pick, this]
  · rw [data_row hw.1.1 hd (pr := Prod.snd) hw' hc, hvar c _ (rowOf_length w dim n c)]
    simp [pick, this]

theorem isEdges_fits {v : Data K} {dim : Dim} {n : Int} {old : Edges K} (hw : v.x.view.WF) (hi : Dim.invalid ∉ labels v.x.view.dims) (hd : (dim, n) ∈ v.x.view.dims)
    (ho : FitsData old dim (n + 1) v.x.view.dims) : isEdges v.x.view.dims old.x.view.dims dim = true := by
  have hdi : dim ≠ Dim.invalid := fun e => hi (e ▸ mem_labels hd)
  have hc : old.x.view.dims.contains dim = true := contains_iff.2 (mem_labels ho.along)
  have hany : (old.x.view.dims.any fun p => p.1 != dim &&
      !(Sizes.contains v.x.view.dims p.1 && decide (at? v.x.view.dims p.1 = at? old.x.view.dims p.1))) = false := by
    rw [List.any_eq_false]
    intro p hp
    by_cases e : p.1 = dim
    · simp [e]
    · have h1 := ho.others p hp e
      simp [contains_iff.2 (mem_labels (x := p.2) h1), at?_of_mem hw.1.1 h1, at?_of_mem ho.wf.1.1 hp]
  simp only [isEdges, hdi, hc, hany, at?_of_mem ho.wf.1.1 ho.along, at?_of_mem hw.1.1 hd]
  simp

/-- What the checks of the order of the edges find. -/
theorem bothSorted_eq {dim : Dim} {n m : Int} {old new : Edges K} (how : old.x.view.WF) (hod : (dim, n) ∈ old.x.view.dims) (hnw : new.x.view.WF) (hnd : (dim, m) ∈ new.x.view.dims)
    (order : Bins.SortOrder) :
    ∃ b, bothSorted dim order old new = .ok b ∧ (b = true ↔
      ∀ e k, (e = old ∧ k = n) ∨ (e = new ∧ k = m) → ∀ c, InDims (e.x.view.dims.filter (·.1 ≠ dim)) c → ∀ i, 0 ≤ i → i + 1 < k →
        match order with
        | .ascending => e.x.elem (upd c dim i) ≤ e.x.elem (upd c dim (i + 1))
        | .descending => e.x.elem (upd c dim (i + 1)) ≤ e.x.elem (upd c dim i)) := by
  obtain ⟨b1, h1, h2⟩ := C62_allsorted (fun a b : K => decide (a ≤ b)) (fun a b => decide (b ≤ a)) old.x how dim n hod order
  obtain ⟨b2, h3, h4⟩ := C62_allsorted (fun a b : K => decide (a ≤ b)) (fun a b => decide (b ≤ a)) new.x hnw dim m hnd order
  simp only [decide_eq_true_eq] at h2 h4
  cases b1 with
  | false =>
    refine ⟨false, by simp [bothSorted, h1, bind, Except.bind], ?_⟩
    constructor
    · intro h; cases h
    · intro h
      exact absurd (h2.2 (h old n (.inl ⟨rfl, rfl⟩))) (by simp)
  | true =>
    refine ⟨b2, by simp [bothSorted, h1, h3, bind, Except.bind], ?_⟩
    rw [h4]
    constructor
    · rintro h e k (⟨rfl, rfl⟩ | ⟨rfl, rfl⟩)
      · exact h2.1 rfl
      · exact h
    · intro h
      exact h new m (.inr ⟨rfl, rfl⟩)

/-- The comparison chosen belongs to the direction of the edges. -/
theorem direction {v : Data K} {dim : Dim} {n m : Int} {old new : Edges K} (h : Rebinnable v dim n m old new) :
    ∃ ascending sorted, bothSorted dim .ascending old new = .ok ascending ∧
      (if ascending = true then (.ok true : Except Err Bool) else bothSorted dim .descending old new) = .ok sorted ∧ sorted = true ∧
      ∀ c, InDims (old.x.view.dims.filter (·.1 ≠ dim)) c → InDims (new.x.view.dims.filter (·.1 ≠ dim)) c →
        Directed (if ascending = true then fun a b => decide (a < b) else fun a b => decide (b < a)) (row new.x dim (m + 1) c) (row old.x dim (n + 1) c) := by
  have hn0 := h.some_bins
  obtain ⟨a, ha, ha'⟩ := bothSorted_eq h.old_fits.wf h.old_fits.along h.new_fits.wf h.new_fits.along .ascending
  obtain ⟨b, hb, hb'⟩ := bothSorted_eq h.old_fits.wf h.old_fits.along h.new_fits.wf h.new_fits.along .descending
  rcases h.monotonic with ⟨h1, h2⟩ | ⟨h1, h2⟩
  · have hat : a = true := ha'.2 (by
      rintro e k (⟨rfl, rfl⟩ | ⟨rfl, rfl⟩) c hc i hi hk
      · exact (h1 c hc i hi hk).le
      · exact (h2 c hc i hi hk).le)
    subst hat
    refine ⟨true, true, ha, rfl, rfl, fun c hc hc' => .inl ⟨rfl, rising_row h2 hc', rising_row h1 hc⟩⟩
  · have hbt : b = true := hb'.2 (by
      rintro e k (⟨rfl, rfl⟩ | ⟨rfl, rfl⟩) c hc i hi hk
      · exact (h1 c hc i hi hk).le
      · exact (h2 c hc i hi hk).le)
    subst hbt
    cases a with
    | false => exact ⟨false, true, ha, by simpa using hb, rfl, fun c hc hc' => .inr ⟨rfl, falling_row h2 hc', falling_row h1 hc⟩⟩
    | true =>
      refine ⟨true, true, ha, rfl, rfl, fun c hc hc' => ?_⟩
      have := ha'.1 rfl old (n + 1) (.inl ⟨rfl, rfl⟩) c hc 0 (by omega) (by omega)
      exact absurd this (not_le.2 (h1 c hc 0 (by omega) (by omega)))

/-- `rebin` after the first `if`. -/
theorem core_ok {v : Data K} {dim : Dim} {n m : Int} {old new : Edges K} (h : Rebinnable v dim n m old new)
    (hcase : Adjacent v.x.view dim ∨ (old.x.view.dims.length = 1 ∧ new.x.view.dims.length = 1))
    {f : (Dim → Int) → K} (hf : ∀ c, InDims v.x.view.dims c → (v.x.elem c).1 = some (f c)) :
    ∃ r, rebinCore v dim old new = .ok r ∧ r.dims = resized v.x.view.dims dim m ∧
      r.unit = v.unit ∧ r.type = outType v.type ∧ r.hasVariances = v.hasVariances ∧
      ∀ c, InDims (resized v.x.view.dims dim m) c →
        (r.elem c).1 = some (rebinnedRow (row new.x dim (m + 1) c) (row old.x dim (n + 1) c) (rowOf f dim n c) (c dim).toNat) ∧
        (Adjacent v.x.view dim → ∀ w : (Dim → Int) → K, (∀ c, InDims v.x.view.dims c → (v.x.elem c).2 = some (w c)) →
          (r.elem c).2 = some (rebinnedRow (row new.x dim (m + 1) c) (row old.x dim (n + 1) c) (rowOf w dim n c) (c dim).toNat)) ∧
        (¬ Adjacent v.x.view dim → ∀ w : (Dim → Int) → K, (∀ c, InDims v.x.view.dims c → (v.x.elem c).2 = some (w c)) →
          (r.elem c).2 = some (rebinnedRowVariance (row new.x dim (m + 1) c) (row old.x dim (n + 1) c) (rowOf w dim n c) (c dim).toNat)) := by
  have hw := h.wf
  have hd := h.along
  have hm := h.nonneg
  have hne : resized v.x.view.dims dim m ≠ [] := by
    intro e
    have : v.x.view.dims = [] := by simpa [resized] using e
    rw [this] at hd
    simp at hd
  have hi : Dim.invalid ∉ labels (resized v.x.view.dims dim m) := by rw [labels_resized]; exact h.valid
  have hei : ∀ {e : Edges K} {k : Int}, FitsData e dim k v.x.view.dims → Dim.invalid ∉ labels e.x.view.dims := by
    intro e k he hc
    obtain ⟨j, hj⟩ := at?_ok_of_mem_labels hc
    by_cases hdim : Dim.invalid = dim
    · exact h.valid (hdim ▸ mem_labels hd)
    · exact h.valid (mem_labels (he.others _ (at?_ok_mem hj) hdim))
  obtain ⟨xo, xo1, xo2, xo3, xo4, xo5⟩ := C62_as_contiguous old.x h.old_fits.wf (hei h.old_fits) dim (n + 1) h.old_fits.along
  obtain ⟨xn, xn1, xn2, xn3, xn4, xn5⟩ := C62_as_contiguous new.x h.new_fits.wf (hei h.new_fits) dim (m + 1) h.new_fits.along
  have hofit : FitsData { old with x := xo } dim (n + 1) v.x.view.dims :=
    ⟨xo2, xo4.mem_iff.2 h.old_fits.along, fun p hp hne => h.old_fits.others p (xo4.mem_iff.1 hp) hne⟩
  have hnfit : FitsData { new with x := xn } dim (m + 1) v.x.view.dims :=
    ⟨xn2, xn4.mem_iff.2 h.new_fits.along, fun p hp hne => h.new_fits.others p (xn4.mem_iff.1 hp) hne⟩
  have hro : ∀ c, InDims (old.x.view.dims.filter (·.1 ≠ dim)) c → row xo dim (n + 1) c = row old.x dim (n + 1) c :=
    fun c hc => row_congr h.old_fits.wf.1.1 h.old_fits.along xo5 hc
  have hrn : ∀ c, InDims (new.x.view.dims.filter (·.1 ≠ dim)) c → row xn dim (m + 1) c = row new.x dim (m + 1) c :=
    fun c hc => row_congr h.new_fits.wf.1.1 h.new_fits.along xn5 hc
  obtain ⟨asc, sorted, hasc, hsorted, rfl, hdir⟩ := direction h
  have hed := isEdges_fits hw h.valid hd h.old_fits
  have hstride := View.stride_eq hw.2.1 (mem_labels hd)
  by_cases hs : strideOf v.x.view.dims v.x.view.strides dim = 1
  · have hadj := (adjacent_iff hw hd).2 hs
    obtain ⟨r, r1, r2, r3, r4, r5, r6, r7⟩ := inner_ok (less := if asc = true then fun a b => decide (a < b) else fun a b => decide (b < a)) hw h.valid hd hadj hofit xo3 hnfit xn3
      hm h.unit h.plain h.types
    have ht := dims_transpose r3 hi hne r2
    rw [labels_resized] at ht
    refine ⟨{ r with dims := resized v.x.view.dims dim m }, ?_, rfl, r4, r5, r6, fun c hc => ?_⟩
    · simp only [rebinCore, hed, h.dense, hasc, hsorted, xo1, xn1, hstride, hs, bind, Except.bind]
      simp only [if_true, Bool.not_true, Bool.false_eq_true, if_false, r1, ht]
      split
      · rfl
      · rename_i hna
        rw [if_neg hna] at hsorted
        simp only [hsorted, Bool.not_true, Bool.false_eq_true, if_false]
    · have hc' := resized_others hc
      have hco := others_in h.old_fits.others hc'
      have hcn := others_in h.new_fits.others hc'
      have hb := resized_along hd hc
      have hk : (c dim).toNat < (row new.x dim (m + 1) c).length - 1 := by rw [row_length]; omega
      have hlen : ∀ g : (Dim → Int) → K, (rowOf g dim n c).length + 1 = (row old.x dim (n + 1) c).length := by
        intro g; rw [rowOf_length, row_length]; have := h.some_bins; omega
      simp only [r7 c hc', hro c hco, hrn c hcn]
      refine ⟨?_, fun _ w hw' => ?_, fun hna => (hna hadj).elim⟩
      · rw [data_row hw.1.1 hd (pr := Prod.fst) hf hc', kernel_eq _ _ _ _ (hdir c hco hcn) (hlen f)]
        simp [hk]
      · rw [data_row hw.1.1 hd (pr := Prod.snd) hw' hc', kernel_eq _ _ _ _ (hdir c hco hcn) (hlen w)]
        simp [hk]
  · have hnadj : ¬ Adjacent v.x.view dim := fun e => hs ((adjacent_iff hw hd).1 e)
    obtain ⟨h1, h2⟩ := hcase.resolve_left hnadj
    have ho1 := one_dim h1 h.old_fits.along
    have hn1 := one_dim h2 h.new_fits.along
    have ho1' : xo.view.dims = [(dim, n + 1)] := one_dim (by rw [xo4.length_eq, h1]) (xo4.mem_iff.2 h.old_fits.along)
    have hn1' : xn.view.dims = [(dim, m + 1)] := one_dim (by rw [xn4.length_eq, h2]) (xn4.mem_iff.2 h.new_fits.along)
    have hall : ∀ (e : Edges K) (k : Int), e.x.view.dims = [(dim, k)] → ∀ c, InDims (e.x.view.dims.filter (·.1 ≠ dim)) c := by
      intro e k he c d j hj
      rw [he] at hj
      simp at hj
    have hco := hall old _ ho1
    have hcn := hall new _ hn1
    obtain ⟨r, r1, r2, r4, r5, r6, r7⟩ := outer_ok (less := if asc = true then fun a b => decide (a < b) else fun a b => decide (b < a)) hw hd h.some_bins hofit xo3 ho1' hnfit xn3
      hn1' hm h.types (fun c => by
        show Directed _ (row xn dim (m + 1) c) (row xo dim (n + 1) c)
        rw [hro c (hco c), hrn c (hcn c)]
        exact hdir c (hco c) (hcn c)) hf
    have hwr : Sizes.WF (resized v.x.view.dims dim m) := by
      refine ⟨by rw [labels_resized]; exact hw.1.1, fun p hp => ?_⟩
      simp only [resized, List.mem_map] at hp
      obtain ⟨q, hq, rfl⟩ := hp
      split
      · exact hm
      · exact hw.1.2 q hq
    have ht := dims_transpose hwr hi hne (List.Perm.refl _)
    rw [labels_resized] at ht
    refine ⟨{ r with dims := resized v.x.view.dims dim m }, ?_, rfl, r4, r5, r6, fun c hc => ⟨?_, fun hadj => (hnadj hadj).elim, fun _ w hw' => ?_⟩⟩
    · simp only [rebinCore, hed, h.dense, hasc, hsorted, xo1, xn1, hstride, hs, bind, Except.bind]
      simp only [Bool.not_true, Bool.false_eq_true, if_false, r1, r2, ht]
      split
      · rfl
      · rename_i hna
        rw [if_neg hna] at hsorted
        simp only [hsorted, Bool.not_true, Bool.false_eq_true, if_false]
    · have hb := resized_along hd hc
      have := (r7 c (resized_others hc) hb.1 hb.2).1
      simp only [hro c (hco c), hrn c (hcn c)] at this
      exact this
    · have hb := resized_along hd hc
      have := (r7 c (resized_others hc) hb.1 hb.2).2 w hw'
      simp only [hro c (hco c), hrn c (hcn c)] at this
      exact this

theorem inDims_perm {a b : Dims} (h : a.Perm b) {c : Dim → Int} (hc : InDims a c) : InDims b c := fun d k hk => hc d k (h.mem_iff.2 hk)

theorem ofArr_elem {V : Type} {a : Arr V} (ha : a.Ok) {c : Dim → Int} (hc : InDims a.dims c) : (ofArr a).elem c = a.val c := by
  simp only [ofArr, Var.elem, fresh_addr]
  exact ha.own _ _ (fun d hd => coordsOf_position ha.wf.1 hc d hd)

theorem ofVar_ok {V : Type} {x : Var V} (hw : x.view.WF) (hi : Dim.invalid ∉ labels x.view.dims) : (Arr.ofVar x).Ok :=
  ⟨hw.1, hi, fun c c' h => by
    simp only [Arr.ofVar, Var.elem]
    congr 1
    rw [View.addr, View.addr]
    congr 1
    exact addrAux_congr h⟩

end Scipp.Props
