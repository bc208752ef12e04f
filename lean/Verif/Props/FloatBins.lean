import Verif.Lemmas.FloatBins
import Verif.Props.Histogram
import Verif.Model.MultiAxis
/-!
Property C100: values are assigned to the right one of evenly spaced bins despite rounding.
-/
namespace Scipp.Props
open Scipp Spec Numeric
open Scipp.FloatBins (guess guessInt linspace)

theorem binOf_of_guessOk {α : Type} [LinearOrder α] {edges : List α} {g : α → Int} (ha : Ascending edges) (hg : GuessOk edges g) (hne : edges ≠ [])
    (x : Option α) : ∃ b, getBin x edges g = .ok b ∧ IsBinOf edges x b := by
  refine ⟨_, (C18_linspace edges ha hne g x (fun v i hx hi => ?_) 0).1, ?_⟩
  · subst hx
    exact hg v i hi
  · obtain ⟨h1, h2⟩ := C18_sorted_edges edges ha x
    by_cases h : updateBinSorted edges x 0 = -1
    · exact .inr ⟨h, h2.1 h⟩
    · have : ∃ i, InBin edges i x := by
        by_contra hc
        exact h (h2.2 (fun i hi => hc ⟨i, hi⟩))
      obtain ⟨i, hi⟩ := this
      exact .inl ⟨i, (h1 i).2 hi, hi⟩

theorem ends {edges : List ℚ} {a b : ℚ} (ha : edges.head? = some a) (hb : edges.getLast? = some b) :
    ∃ N, edges.length = N + 1 ∧ edges[0]? = some a ∧ edges[N]? = some b := by
  cases edges with
  | nil => simp at ha
  | cons x t =>
    refine ⟨t.length, by simp, by simpa using ha, ?_⟩
    rw [List.getLast?_eq_getElem?] at hb
    simpa using hb

/-- **C100** (bins): edges of type `double` which `islinspace` accepts, from `a` to `b` with `n` bins, are in ascending order, and `get_bin`
finds for every value the bin containing it, provided the bins are not too narrow: `n² (|a| + |b|) ≤ 2⁴⁶ (b - a)`. For edges which
start at zero this allows for 8 million bins. -/
theorem C100_bins_partial (edges : List ℚ) (a b : ℚ) (ha : edges.head? = some a) (hb : edges.getLast? = some b)
    (hn : edges.length ≤ 2 ^ 53) (hlin : FloatBins.islinspace edges = true)
    (hwide : ((edges.length : ℚ) - 1) ^ 2 * (|a| + |b|) ≤ 2 ^ 46 * (b - a)) (x : Option ℚ) :
    Ascending edges ∧ ∃ i, getBin x edges (guess edges) = .ok i ∧ IsBinOf edges x i := by
  obtain ⟨N, hl, h0, hN⟩ := ends ha hb
  have hlq : (edges.length : ℚ) - 1 = N := by rw [hl]; push_cast; ring
  rw [hlq] at hwide
  obtain ⟨h1, h2, h3, h4, h5⟩ := FloatBins.accepted_steps hl h0 hN hlin (by omega) hwide
  have hNq : (0 : ℚ) < N := by exact_mod_cast h1
  obtain ⟨g1, g2⟩ := FloatBins.guessOk_of_steps hl.le h1 h2 (div_pos (by linarith) hNq) (by positivity) h4 h5
  refine ⟨g1, binOf_of_guessOk g1 g2 ?_ x⟩
  rintro rfl
  simp at hl

/-- **C100** (histograms): with edges of type `double` in ascending order, which are either not accepted by `islinspace` or wide enough, every element
of a histogram is the sum of the weights of the events inside its bin. -/
theorem C100_histogram {W : Type} [AddCommMonoid W] (edges : List ℚ) (a b : ℚ) (ha : edges.head? = some a) (hb : edges.getLast? = some b)
    (hn : edges.length ≤ 2 ^ 53) (hasc : Ascending edges)
    (hwide : FloatBins.islinspace edges = true → ((edges.length : ℚ) - 1) ^ 2 * (|a| + |b|) ≤ 2 ^ 46 * (b - a))
    (events : List (Option ℚ × W)) :
    ∃ data, histogram FloatBins.islinspace guess edges events = .ok data ∧ data.length = edges.length - 1 ∧
      ∀ i, i < data.length → data[i]? = some (weightWhere (InBin edges i) events) := by
  obtain ⟨N, hl, h0, hN⟩ := ends ha hb
  have hlq : (edges.length : ℚ) - 1 = N := by rw [hl]; push_cast; ring
  rw [hlq] at hwide
  obtain ⟨data, g1, g2, g3, -⟩ := C19_histogram_partial FloatBins.islinspace guess edges hasc (by
    intro hlin
    obtain ⟨h1, h2, h3, h4, h5⟩ := FloatBins.accepted_steps hl h0 hN hlin (by omega) (hwide hlin)
    have hNq : (0 : ℚ) < N := by exact_mod_cast h1
    refine ⟨?_, (FloatBins.guessOk_of_steps hl.le h1 h2 (div_pos (by linarith) hNq) (by positivity) h4 h5).2⟩
    rintro rfl
    simp at hl) events
  exact ⟨data, g1, g2, g3⟩

/-- **C100** (part of the edges): when only part of the edges is used for an input bin, as for data that is already binned, `get_bin` applied to that
part finds the right bin, although `islinspace` was applied to all edges. -/
theorem C100_part (edges : List ℚ) (a b : ℚ) (ha : edges.head? = some a) (hb : edges.getLast? = some b)
    (hn : edges.length ≤ 2 ^ 53) (hlin : FloatBins.islinspace edges = true)
    (hwide : ((edges.length : ℚ) - 1) ^ 2 * (|a| + |b|) ≤ 2 ^ 46 * (b - a)) (first last : Int) (hne : subEdges edges first last ≠ []) (x : Option ℚ) :
    ∃ i, getBin x (subEdges edges first last) (guess (subEdges edges first last)) = .ok i ∧ IsBinOf (subEdges edges first last) x i := by
  obtain ⟨N, hl, h0, hN⟩ := ends ha hb
  have hlq : (edges.length : ℚ) - 1 = N := by rw [hl]; push_cast; ring
  rw [hlq] at hwide
  obtain ⟨h1, h2, h3, h4, h5⟩ := FloatBins.accepted_steps hl h0 hN hlin (by omega) hwide
  have hNq : (0 : ℚ) < N := by exact_mod_cast h1
  have hget : ∀ (i : Nat) (y : ℚ), (subEdges edges first last)[i]? = some y → edges[first.toNat + i]? = some y := by
    intro i y hy
    unfold subEdges at hy
    rw [List.getElem?_drop, List.getElem?_take] at hy
    split at hy
    · exact hy
    · cases hy
  obtain ⟨g1, g2⟩ := FloatBins.guessOk_of_steps (edges := subEdges edges first last) (M := N)
    (by unfold subEdges; simp only [List.length_drop, List.length_take]; omega) h1 h2 (div_pos (by linarith) hNq) (by positivity) h4
    (fun i p q hp hq => h5 (first.toNat + i) p q (hget i p hp) (hget (i + 1) q hq))
  exact binOf_of_guessOk g1 g2 hne x

/-- **C100** (nearly even edges): if every edge lies within half a bin of its even position, `get_bin` finds the right bin for every value, with up to
2⁴⁹ bins. -/
theorem C100_nearly_even (edges : List ℚ) (a h : ℚ) (N : Nat) (hlen : edges.length = N + 1) (hN1 : 1 ≤ N) (hN : N ≤ 2 ^ 49) (hh : 0 < h)
    (ha : edges.head? = some a) (hb : edges.getLast? = some (a + N * h)) (hasc : Ascending edges)
    (hdev : ∀ (i : Nat) e, edges[i]? = some e → |e - (a + i * h)| ≤ h / 2) (x : Option ℚ) :
    ∃ i, getBin x edges (guess edges) = .ok i ∧ IsBinOf edges x i := by
  refine binOf_of_guessOk hasc (FloatBins.guessOk_of_even hlen hN1 hN hh ?_ ?_ hdev) (by rintro rfl; simp at hlen) x
  · cases edges with
    | nil => simp at ha
    | cons y t => simpa using ha
  · rw [List.getLastD_eq_getLast?, hb]; rfl

/-- **C100** (integers): for integers and datetimes in ascending order which `islinspace` accepts, `get_bin` finds the right bin for every value, with
up to 2⁴⁹ bins, although the position is computed with numbers of type `double`. -/
theorem C100_integers (edges : List Int) (hn : edges.length ≤ 2 ^ 49) (hlin : islinspaceInt edges = true) (hasc : Ascending edges)
    (x : Option Int) : ∃ i, getBin x edges (guessInt edges) = .ok i ∧ IsBinOf edges x i := by
  match edges, hn, hlin, hasc with
  | [], _, hlin, _ => simp [islinspaceInt] at hlin
  | [_], _, hlin, _ => simp [islinspaceInt] at hlin
  | p :: q :: rest, hn, hlin, hasc =>
    obtain ⟨back, hback⟩ : ∃ back, (p :: q :: rest).getLast? = some back := ⟨_, List.getLast?_eq_some_getLast (by simp)⟩
    simp only [islinspaceInt, hback] at hlin
    split at hlin
    · exact absurd hlin (by simp)
    rename_i hlt
    rw [Bool.not_eq_true', adjacentFind_false] at hlin
    have hstep : ∀ (i : Nat) s t, (p :: q :: rest)[i]? = some s → (p :: q :: rest)[i + 1]? = some t → t - s = q - p := by
      intro i s t hs ht
      have h1 := hlin i s t hs ht
      have h2 : s ≤ t := by
        have h3 := List.pairwise_iff_getElem.1 hasc
        obtain ⟨hi, hs'⟩ := List.getElem?_eq_some_iff.1 hs
        obtain ⟨hj, ht'⟩ := List.getElem?_eq_some_iff.1 ht
        rw [← hs', ← ht']
        exact h3 i (i + 1) hi hj (by omega)
      simp only [bne_eq_false_iff_eq] at h1
      rw [abs_of_nonneg (by omega)] at h1
      exact h1
    have hq : p ≤ q := by
      have := List.pairwise_cons.1 hasc
      exact this.1 q (by simp)
    have hpq : 0 < q - p := by
      rcases eq_or_lt_of_le hq with h | h
      · exfalso
        have hconst : ∀ (i : Nat) t, (p :: q :: rest)[i]? = some t → t = p := by
          intro i
          induction i with
          | zero => intro t ht; simpa using ht.symm
          | succ i ih =>
            intro t ht
            obtain ⟨hj, _⟩ := List.getElem?_eq_some_iff.1 ht
            have hz : (p :: q :: rest)[i]? = some ((p :: q :: rest)[i]'(by omega)) := List.getElem?_eq_getElem (by omega)
            have h1 := ih _ hz
            have h2 := hstep i _ t hz ht
            omega
        rw [List.getLast?_eq_getElem?] at hback
        have := hconst _ _ hback
        omega
      · omega
    set edges := p :: q :: rest with hedges
    set Q := edges.map (fun e : Int => (e : ℚ)) with hQ
    have hQget : ∀ (i : Nat) (y : ℚ), Q[i]? = some y → ∃ z : Int, edges[i]? = some z ∧ y = z := by
      intro i y hy
      rw [hQ, List.getElem?_map] at hy
      cases hz : edges[i]? with
      | none => rw [hz] at hy; simp at hy
      | some z => rw [hz] at hy; simp only [Option.map_some, Option.some.injEq] at hy; exact ⟨z, rfl, hy.symm⟩
    have hlen2 : Q.length ≤ (edges.length - 1) + 1 := by rw [hQ, List.length_map]; omega
    have hlen3 : 1 ≤ edges.length - 1 := by simp [hedges]
    obtain ⟨-, g2⟩ := FloatBins.guessOk_of_steps (edges := Q) (M := edges.length - 1) (h := ((q - p : Int) : ℚ)) (τ := 0) hlen2 hlen3 (by omega)
      (by exact_mod_cast hpq) (le_refl 0) (by simp; exact_mod_cast hq) (by
        intro i s t hs ht
        obtain ⟨s', hs', rfl⟩ := hQget i s hs
        obtain ⟨t', ht', rfl⟩ := hQget (i + 1) t ht
        have := hstep i s' t' hs' ht'
        rw [abs_le]
        have hz : (t' : ℚ) - s' - ((q - p : Int) : ℚ) = 0 := by rw [← this]; push_cast; ring
        rw [hz]; simp)
    refine binOf_of_guessOk hasc ?_ (by simp [hedges]) x
    rintro v i ⟨v', lo, hi, e, f1, f2, f3, f4⟩
    cases e
    exact g2 (v : ℚ) i ⟨v, lo, hi, rfl, by rw [hQ, List.getElem?_map, f1]; rfl, by rw [hQ, List.getElem?_map, f2]; rfl,
      by exact_mod_cast f3, by exact_mod_cast f4⟩

/-- **C100** (`linspace`): for numbers `a ≤ b` of type `double`, `linspace` with at least two elements has the requested number of elements, begins
with `a`, ends with `b`, is in ascending order, and every element is within 4.1 units in the last place of `|a| + |b|` of its exact position. -/
theorem C100_linspace (a b : ℚ) (N : Nat) (hN1 : 1 ≤ N) (hN : N ≤ 2 ^ 50) (hda : roundDouble a = a) (hdb : roundDouble b = b) (hab : a ≤ b) :
    ∃ edges, linspace a b (N + 1) = .ok edges ∧ edges.length = N + 1 ∧ edges.head? = some a ∧ edges.getLast? = some b ∧ Ascending edges ∧
      ∀ (i : Nat) e, edges[i]? = some e → |e - (a + i * ((b - a) / N))| ≤ 41 / 10 / 2 ^ 53 * (|a| + |b|) := by
  obtain ⟨edges, h⟩ : ∃ edges, linspace a b (N + 1) = .ok edges := ⟨_, by unfold linspace; rw [if_neg (by omega)]⟩
  have hN53 : N < 2 ^ 53 := lt_of_le_of_lt hN (by norm_num)
  obtain ⟨hl, -, hlast⟩ := FloatBins.linspace_get (i := 0) h
  have hclose := FloatBins.linspace_close h hN1 hN53 hda hab
  have h0 : edges[0]? = some (edges[0]'(by omega)) := List.getElem?_eq_getElem (by omega)
  refine ⟨edges, h, hl, ?_, ?_, FloatBins.linspace_sorted h hN hdb hab, ?_⟩
  · rw [List.head?_eq_getElem?, h0, (hclose 0 _ h0).2.1 rfl]
  · rw [List.getLast?_eq_getElem?, hl, Nat.add_sub_cancel]; exact hlast
  · intro i e he
    have c := abs_le.1 (hclose i e he).1
    obtain ⟨hilt, _⟩ := List.getElem?_eq_some_iff.1 he
    have hNq : (0 : ℚ) < N := by exact_mod_cast hN1
    have hbaS : b - a ≤ |a| + |b| := by
      have h1 := le_abs_self b
      have h2 := neg_abs_le a
      linarith
    obtain ⟨R1, R2⟩ := FloatBins.round_bounds (sub_nonneg.2 hab)
    have hi1 : (i : ℚ) / N ≤ 1 := by
      rw [div_le_one hNq]
      exact_mod_cast (by omega : i ≤ N)
    have hi0 : (0 : ℚ) ≤ (i : ℚ) / N := by positivity
    have e1 : (i : ℚ) * (roundDouble (b - a) / N) = (i : ℚ) / N * roundDouble (b - a) := by ring
    have e2 : (i : ℚ) * ((b - a) / N) = (i : ℚ) / N * (b - a) := by ring
    rw [e1] at c
    rw [e2, abs_le]
    have hba : 0 ≤ b - a := sub_nonneg.2 hab
    have hd1 : (i : ℚ) / N * (roundDouble (b - a) - (b - a)) ≤ 1 / 2 ^ 53 * (|a| + |b|) := by
      have h1 : roundDouble (b - a) - (b - a) ≤ (b - a) / 2 ^ 53 := by linarith
      have h2 := mul_le_mul_of_nonneg_left h1 hi0
      have h3 : (i : ℚ) / N * ((b - a) / 2 ^ 53) ≤ 1 * ((b - a) / 2 ^ 53) := mul_le_mul_of_nonneg_right hi1 (by positivity)
      linarith
    have hd2 : -(1 / 2 ^ 53 * (|a| + |b|)) ≤ (i : ℚ) / N * (roundDouble (b - a) - (b - a)) := by
      have h1 : -((b - a) / 2 ^ 53) ≤ roundDouble (b - a) - (b - a) := by linarith
      have h2 := mul_le_mul_of_nonneg_left h1 hi0
      have h3 : (i : ℚ) / N * ((b - a) / 2 ^ 53) ≤ 1 * ((b - a) / 2 ^ 53) := mul_le_mul_of_nonneg_right hi1 (by positivity)
      linarith
    have hS0 : 0 ≤ |a| + |b| := by positivity
    norm_num at c hd1 hd2 ⊢
    constructor <;> linarith [c.1, c.2]

/-- **C100** (`linspace` and `islinspace`): `islinspace` accepts what `linspace` computes from numbers `a < b` of type `double`. -/
theorem C100_linspace_accepted (a b : ℚ) (N : Nat) (hN1 : 1 ≤ N) (hN : N < 2 ^ 53) (hda : roundDouble a = a) (hab : a < b) (edges : List ℚ)
    (h : linspace a b (N + 1) = .ok edges) : FloatBins.islinspace edges = true :=
  FloatBins.linspace_accepted h hN1 hN hda hab

/-- **C100** (bins from `linspace`): with edges computed by `linspace`, `get_bin` finds the right bin for every value if the width of the bins is at least
2⁻⁴⁹ of `|a| + |b|`. -/
theorem C100_linspace_bins (a b : ℚ) (N : Nat) (hN1 : 1 ≤ N) (hda : roundDouble a = a) (hdb : roundDouble b = b) (hab : a < b)
    (hwide : N * (|a| + |b|) ≤ 2 ^ 49 * (b - a)) (edges : List ℚ) (h : linspace a b (N + 1) = .ok edges) (x : Option ℚ) :
    ∃ i, getBin x edges (guess edges) = .ok i ∧ IsBinOf edges x i := by
  have hNq : (0 : ℚ) < N := by exact_mod_cast hN1
  have hbaS : b - a ≤ |a| + |b| := by
    have h1 := le_abs_self b
    have h2 := neg_abs_le a
    linarith
  have hS : 0 < |a| + |b| := lt_of_lt_of_le (by linarith) hbaS
  have hN49 : N ≤ 2 ^ 49 := by
    have h1 : (N : ℚ) * (|a| + |b|) ≤ 2 ^ 49 * (|a| + |b|) := by nlinarith
    have := le_of_mul_le_mul_right h1 hS
    exact_mod_cast this
  obtain ⟨edges', h', hl, hhead, hlast, hasc, hdev⟩ := C100_linspace a b N hN1 (le_trans hN49 (by norm_num)) hda hdb hab.le
  rw [h] at h'
  injection h' with h'
  subst h'
  refine C100_nearly_even edges a ((b - a) / N) N hl hN1 hN49 (div_pos (by linarith) hNq) hhead ?_ hasc ?_ x
  · rw [hlast]; congr 1; field_simp; ring
  · intro i e he
    refine le_trans (hdev i e he) ?_
    have e1 : (b - a) / N / 2 = (b - a) / (2 * N) := by field_simp
    rw [e1, le_div_iff₀ (by positivity)]
    norm_num at hwide ⊢
    linarith

/-- **C100** fails far from zero: these edges, e.g., times in nanoseconds since 1970 stored as `double`, have widths between 256 and 2816 but are accepted
by `islinspace`, since the tolerance is 3022. The value in bin 4 is then counted in bin 2. -/
theorem C100_wrong_far_from_zero :
    let edges : List ℚ := [0, 256, 512, 768, 1024, 1280, 4096].map (1700000000000000000 + ·)
    Ascending edges ∧ (∀ e ∈ edges, roundDouble e = e) ∧ FloatBins.islinspace edges = true ∧ InBin edges 4 (some (1700000000000000000 + 1024)) ∧
    getBin (some (1700000000000000000 + 1024)) edges (guess edges) = .ok 2 ∧
    histogram FloatBins.islinspace guess edges [(some (1700000000000000000 + 1024), (1 : Int))] = .ok [0, 0, 1, 0, 0, 0] := by
  refine ⟨by unfold Ascending; decide +kernel, by decide +kernel, by decide +kernel, by decide +kernel, by decide +kernel, by decide +kernel⟩

/-- **C100** fails for unsorted edges far from zero, which are accepted instead of being rejected. -/
theorem C100_wrong_unsorted :
    let edges : List ℚ := [0, 1024, 512, 2048].map (1700000000000000000 + ·)
    ¬ Ascending edges ∧ FloatBins.islinspace edges = true ∧
    histogram FloatBins.islinspace guess edges [(some (1700000000000000000 + 768), (1 : Int))] = .ok [1, 0, 0] := by
  refine ⟨by unfold Ascending; decide +kernel, by decide +kernel, by decide +kernel⟩

/-- **C100** fails for `linspace` with one element, which is the end of the range instead of its beginning (as in NumPy), and with no element,
which is an error. -/
theorem C100_wrong_linspace_one (a b : ℚ) : linspace a b 1 = .ok [b] ∧ linspace a b 0 = .error .slice := ⟨rfl, rfl⟩

/-! Cases meeting the hypotheses. -/

/-- The edges 0.0, 0.1, …, 0.5 as computed by `linspace`: rounded to numbers of type `double`, the steps differ. -/
def c100Edges : List ℚ := [0, 3602879701896397 / 36028797018963968, 3602879701896397 / 18014398509481984, 5404319552844595 / 18014398509481984,
  3602879701896397 / 9007199254740992, 1 / 2]

example : linspace 0 (1 / 2) 6 = .ok c100Edges := by decide +kernel

example : ∃ i, getBin (some (3602879701896397 / 9007199254740992)) c100Edges (guess c100Edges) = .ok i ∧
    IsBinOf c100Edges (some (3602879701896397 / 9007199254740992)) i :=
  (C100_bins_partial c100Edges 0 (1 / 2) rfl rfl (by decide) (by decide +kernel) (by norm_num [c100Edges]) _).2

example : FloatBins.islinspace c100Edges = true ∧
    getBin (some (3602879701896397 / 9007199254740992)) c100Edges (guess c100Edges) = .ok 4 := by
  refine ⟨by decide +kernel, by decide +kernel⟩

example := C100_histogram (W := Int) c100Edges 0 (1 / 2) rfl rfl (by decide) (by unfold Ascending; decide +kernel) (fun _ => by norm_num [c100Edges])
  [(some (1 / 4), 3), (none, 4), (some (2 / 5), 5)]

example := C100_part c100Edges 0 (1 / 2) rfl rfl (by decide) (by decide +kernel) (by norm_num [c100Edges]) 1 4 (by decide +kernel) (some (1 / 4))

example := C100_nearly_even [0, 9 / 10, 2] 0 1 2 rfl (by decide) (by decide) (by norm_num) rfl (by norm_num) (by unfold Ascending; decide +kernel) (by
    intro i e he
    match i with
    | 0 => simp at he; subst he; norm_num
    | 1 => simp at he; subst he; norm_num [abs_le]
    | 2 => simp at he; subst he; norm_num
    | i + 3 => simp at he) (some (19 / 20))

example := C100_integers [3, 6, 9, 12] (by decide) (by decide) (by unfold Ascending; decide) (some 9)

example := C100_linspace 0 (1 / 2) 5 (by decide) (by decide) (by decide +kernel) (by decide +kernel) (by norm_num)

example := C100_linspace_accepted 0 (1 / 2) 5 (by decide) (by decide) (by decide +kernel) (by norm_num) c100Edges (by decide +kernel)

example := C100_linspace_bins 0 (1 / 2) 5 (by decide) (by decide +kernel) (by decide +kernel) (by norm_num) (by norm_num) c100Edges (by decide +kernel)
  (some (1 / 4))

end Scipp.Props
