import Verif.Lemmas.Numeric
import Mathlib.Tactic.LinearCombination
import Mathlib.Tactic.Positivity
import Mathlib.Tactic.FieldSimp
/-!
Property C50: detection of linear and consecutive ranges.
-/
namespace Scipp.Props
open Scipp Numeric

/-- Consecutive elements differ by `+d`. -/
def ConstantStep (d : Int) (l : List Int) : Prop :=
  ∀ (i : Nat) (a b : Int), l[i]? = some a → l[i + 1]? = some b → b - a = d

/-- The claim is false: a zigzag list is classified as consecutive integers … -/
theorem C50_isarange_accepts_zigzag : isarange [0, 1, 0, 1, 2] = true ∧ ¬ ConstantStep 1 [0, 1, 0, 1, 2] := by
  refine ⟨by decide, ?_⟩
  intro h
  have := h 1 1 0 rfl rfl
  omega

/-- … and as a linear range. -/
theorem C50_islinspace_accepts_zigzag :
    islinspaceInt [0, 1, 0, 1] = true ∧ ∀ d, ¬ (0 < d ∧ ConstantStep d [0, 1, 0, 1]) := by
  refine ⟨by decide, ?_⟩
  rintro d ⟨hd, h⟩
  have := h 1 1 0 rfl rfl
  omega

/-- **C50** (`isarange`, exact characterisation): apart from the case of less than two elements, the range must end above
its begin and consecutive elements differ by `+1` or `-1`. -/
theorem C50_isarange_iff (l : List Int) : isarange l = true ↔
    l.length < 2 ∨ (∃ a b, l.head? = some a ∧ l.getLast? = some b ∧ a < b) ∧
      ∀ (i : Nat) (a b : Int), l[i]? = some a → l[i + 1]? = some b → b - a = 1 ∨ b - a = -1 := by
  match l with
  | [] => simp [isarange]
  | [a] => simp [isarange]
  | a :: b :: rest =>
    obtain ⟨z, hz⟩ : ∃ z, (a :: b :: rest).getLast? = some z := ⟨_, List.getLast?_eq_some_getLast (by simp)⟩
    have hlen : ¬ (a :: b :: rest).length < 2 := by simp
    simp only [isarange, hz, hlen, false_or, List.head?_cons, Option.some.injEq]
    by_cases hza : z ≤ a
    · simp only [if_pos hza, Bool.false_eq_true, false_iff]
      rintro ⟨⟨a', b', h1, h2, h⟩, _⟩; subst h1; subst h2; omega
    · simp only [if_neg hza]
      rw [Bool.not_eq_true', adjacentFind_false]
      constructor
      · intro h
        refine ⟨⟨a, z, rfl, rfl, by omega⟩, fun i x y hx hy => ?_⟩
        have := h i x y hx hy
        simp only [bne_eq_false_iff_eq] at this
        rcases abs_choice (y - x) with h' | h' <;> omega
      · rintro ⟨_, h⟩ i x y hx hy
        simp only [bne_eq_false_iff_eq]
        rcases h i x y hx hy with h' | h' <;> rw [h'] <;> rfl

example := C50_isarange_iff [3, 4, 5]

/-- **C50** (`isarange`) for lists in non-decreasing order. Partial: the claim is for all lists, which is false, see
`C50_isarange_accepts_zigzag`. -/
theorem C50_isarange_partial (l : List Int) (h : l.Pairwise (· ≤ ·)) : isarange l = true ↔ ConstantStep 1 l := by
  rw [C50_isarange_iff]
  have hle : ∀ (i : Nat) (a b : Int), l[i]? = some a → l[i + 1]? = some b → a ≤ b := by
    intro i a b ha hb
    obtain ⟨hi, rfl⟩ := List.getElem?_eq_some_iff.mp ha
    obtain ⟨hj, rfl⟩ := List.getElem?_eq_some_iff.mp hb
    exact List.pairwise_iff_getElem.mp h i (i + 1) hi hj (by omega)
  constructor
  · rintro (hl | ⟨_, h2⟩) i a b ha hb
    · obtain ⟨hj, _⟩ := List.getElem?_eq_some_iff.mp hb
      omega
    · have := hle i a b ha hb
      rcases h2 i a b ha hb with h' | h' <;> omega
  · intro hc
    by_cases hl : l.length < 2
    · exact Or.inl hl
    · refine Or.inr ⟨?_, fun i a b ha hb => Or.inl (hc i a b ha hb)⟩
      match l with
      | [] => simp at hl
      | [a] => simp at hl
      | a :: b :: rest =>
        have h1 := hc 0 a b rfl rfl
        obtain ⟨z, hz⟩ : ∃ z, (a :: b :: rest).getLast? = some z := ⟨_, List.getLast?_eq_some_getLast (by simp)⟩
        refine ⟨a, z, rfl, hz, ?_⟩
        rw [List.getLast?_eq_getElem?] at hz
        obtain ⟨hj, hz'⟩ := List.getElem?_eq_some_iff.mp hz
        have hb : b ≤ z := by
          by_cases e : rest = []
          · subst e; simp at hz'; omega
          · have hpos : 0 < rest.length := List.length_pos_iff.mpr e
            have := List.pairwise_iff_getElem.mp h 1 ((a :: b :: rest).length - 1) (by simp) hj (by simp; omega)
            rw [hz'] at this
            simpa using this
        omega

example := C50_isarange_partial [3, 4, 5] (by decide)

/-- **C50** (`islinspace` for integers) for lists in non-decreasing order with at least two elements. Partial as for
`isarange`. -/
theorem C50_islinspace_int_partial (l : List Int) (h : l.Pairwise (· ≤ ·)) (hl : 2 ≤ l.length) :
    islinspaceInt l = true ↔ ∃ d, 0 < d ∧ ConstantStep d l := by
  have hle : ∀ (i : Nat) (a b : Int), l[i]? = some a → l[i + 1]? = some b → a ≤ b := by
    intro i a b ha hb
    obtain ⟨hi, rfl⟩ := List.getElem?_eq_some_iff.mp ha
    obtain ⟨hj, rfl⟩ := List.getElem?_eq_some_iff.mp hb
    exact List.pairwise_iff_getElem.mp h i (i + 1) hi hj (by omega)
  match l with
  | [] => simp at hl
  | [a] => simp at hl
  | a :: b :: rest =>
    obtain ⟨z, hz⟩ : ∃ z, (a :: b :: rest).getLast? = some z := ⟨_, List.getLast?_eq_some_getLast (by simp)⟩
    simp only [islinspaceInt, hz]
    have hab := hle 0 a b rfl rfl
    have hbz : b ≤ z := by
      rw [List.getLast?_eq_getElem?] at hz
      obtain ⟨hj, hz'⟩ := List.getElem?_eq_some_iff.mp hz
      by_cases e : rest = []
      · subst e; simp at hz'; omega
      · have hpos : 0 < rest.length := List.length_pos_iff.mpr e
        have := List.pairwise_iff_getElem.mp h 1 ((a :: b :: rest).length - 1) (by simp) hj (by simp; omega)
        rw [hz'] at this
        simpa using this
    -- all steps zero makes the last element equal to the first
    have hconst : ConstantStep 0 (a :: b :: rest) → z = a := by
      intro hc
      have : ∀ (n : Nat) x, (a :: b :: rest)[n]? = some x → x = a := by
        intro n
        induction n with
        | zero => intro x hx; simp at hx; exact hx.symm
        | succ n ih =>
          intro x hx
          obtain ⟨hj, _⟩ := List.getElem?_eq_some_iff.mp hx
          have hn := List.getElem?_eq_getElem (show n < (a :: b :: rest).length by omega)
          have := hc n _ x hn hx
          have := ih _ hn
          omega
      rw [List.getLast?_eq_getElem?] at hz
      exact this _ _ hz
    by_cases hza : z ≤ a
    · simp only [if_pos hza, Bool.false_eq_true, false_iff]
      rintro ⟨d, hd, hc⟩
      have := hc 0 a b rfl rfl
      omega
    · simp only [if_neg hza]
      rw [Bool.not_eq_true', adjacentFind_false]
      constructor
      · intro hc
        have hstep : ConstantStep (b - a) (a :: b :: rest) := by
          intro i x y hx hy
          have := hc i x y hx hy
          simp only [bne_eq_false_iff_eq] at this
          rwa [abs_of_nonneg (by have := hle i x y hx hy; omega)] at this
        refine ⟨b - a, ?_, hstep⟩
        by_contra hn
        have h0 : b - a = 0 := by omega
        rw [h0] at hstep
        have := hconst hstep
        omega
      · rintro ⟨d, hd, hc⟩ i x y hx hy
        have h1 := hc 0 a b rfl rfl
        have h2 := hc i x y hx hy
        simp only [bne_eq_false_iff_eq]
        rw [abs_of_nonneg (by omega)]
        omega

example := C50_islinspace_int_partial [3, 5, 7] (by decide) (by decide)

theorem getElem?_getLast_telescope : ∀ (l : List ℚ) (a z : ℚ), l.head? = some a → l.getLast? = some z →
    ((l.zip l.tail).map fun p => p.2 - p.1).sum = z - a
  | [], _, _, h, _ => by simp at h
  | [x], a, z, h1, h2 => by simp at h1 h2; subst h1; subst h2; simp
  | x :: y :: rest, a, z, h1, h2 => by
    have ih := getElem?_getLast_telescope (y :: rest) y z rfl (by simpa using h2)
    simp only [List.head?_cons, Option.some.injEq] at h1
    subst h1
    simp only [List.tail_cons, List.zip_cons_cons, List.map_cons, List.sum_cons] at ih ⊢
    rw [ih]; ring

theorem sum_le_of_step (l : List ℚ) (c : ℚ) (h : ∀ x ∈ l, x ≤ c) : l.sum ≤ l.length * c := by
  induction l with
  | nil => simp
  | cons x l ih =>
    have h1 := h x (by simp)
    have h2 := ih (fun y hy => h y (by simp [hy]))
    simp only [List.sum_cons, List.length_cons]; push_cast; linarith

theorem sum_le_of_one (l : List ℚ) (c m : ℚ) (h : ∀ x ∈ l, x ≤ c) (x : ℚ) (hx : x ∈ l) (hxm : x ≤ m) :
    l.sum ≤ (l.length - 1) * c + m := by
  induction l with
  | nil => simp at hx
  | cons y l ih =>
    simp only [List.sum_cons, List.length_cons]
    push_cast
    simp only [List.mem_cons] at hx
    rcases hx with rfl | hx
    · have := sum_le_of_step l c (fun y hy => h y (by simp [hy]))
      linarith
    · have h1 := h y (by simp)
      have h2 := ih (fun y hy => h y (by simp [hy])) hx
      linarith

/-- **C50** (`islinspace` for floating-point numbers, exact arithmetic): an accepted list with the tolerance `ε` of the code and
less than `2 δ / ε` steps is in strictly or weakly increasing order with every step within `ε` of the mean step `δ`. In particular
zigzag lists are rejected, unlike for integers, and without tolerance the step is constant and positive. -/
theorem C50_islinspace_float (u : ℚ) (l : List ℚ) (front back : ℚ) (hf : l.head? = some front)
    (hb : l.getLast? = some back)
    (hsmall : ((l.length : ℚ) - 1) * (u * (|front| + |back|) * 4) < 2 * ((back - front) / ((l.length : ℚ) - 1)))
    (h : islinspaceRat u l = true) :
    front < back ∧ 2 ≤ l.length ∧ ∀ (i : Nat) a b, l[i]? = some a → l[i + 1]? = some b →
      a ≤ b ∧ |(b - a) - (back - front) / ((l.length : ℚ) - 1)| ≤ u * (|front| + |back|) * 4 := by
  match l with
  | [] => simp at hf
  | [x] => simp [islinspaceRat] at h
  | x :: y :: rest =>
    simp only [List.head?_cons, Option.some.injEq] at hf
    subst hf
    simp only [islinspaceRat, hb] at h
    by_cases hle : back ≤ x
    · simp [hle] at h
    · rw [if_neg hle, Bool.not_eq_true', adjacentFind_false] at h
      push Not at hle
      refine ⟨hle, by simp, ?_⟩
      generalize hδ : (back - x) / ((((x :: y :: rest).length : Nat) : ℚ) - 1) = δ at h hsmall ⊢
      generalize hε : u * (|x| + |back|) * 4 = ε at h hsmall ⊢
      have hstep : ∀ (i : Nat) a b, (x :: y :: rest)[i]? = some a → (x :: y :: rest)[i + 1]? = some b →
          abs (|b - a| - δ) ≤ ε := by
        intro i a b ha hb'
        have := h i a b ha hb'
        simpa using this
      have hn : (0 : ℚ) < (((x :: y :: rest).length : Nat) : ℚ) - 1 := by
        simp only [List.length_cons]; push_cast
        have : (0 : ℚ) ≤ rest.length := Nat.cast_nonneg _
        linarith
      have hsum := getElem?_getLast_telescope (x :: y :: rest) x back rfl hb
      set D := ((x :: y :: rest).zip (x :: y :: rest).tail).map fun p => p.2 - p.1 with hD
      have hDlen : ((D.length : Nat) : ℚ) = (((x :: y :: rest).length : Nat) : ℚ) - 1 := by
        rw [hD]; simp
      have htot : D.sum = ((((x :: y :: rest).length : Nat) : ℚ) - 1) * δ := by
        rw [hsum, ← hδ]; field_simp
      have hDget : ∀ d ∈ D, ∃ (i : Nat) (a b : ℚ), (x :: y :: rest)[i]? = some a ∧ (x :: y :: rest)[i + 1]? = some b ∧
          d = b - a := by
        intro d hd
        rw [hD, List.mem_map] at hd
        obtain ⟨⟨a, b⟩, hab, rfl⟩ := hd
        obtain ⟨i, hi⟩ := List.getElem?_of_mem hab
        obtain ⟨h1, h2⟩ := List.getElem?_zip_eq_some.mp hi
        exact ⟨i, a, b, h1, by simpa using h2, rfl⟩
      have hup : ∀ d ∈ D, d ≤ δ + ε := by
        intro d hd
        obtain ⟨i, a, b, ha, hb', rfl⟩ := hDget d hd
        have h1 := abs_le.mp (hstep i a b ha hb')
        have h2 := le_abs_self (b - a)
        linarith [h1.2]
      intro i a b ha hb'
      have hmem : b - a ∈ D := by
        rw [hD, List.mem_map]
        refine ⟨(a, b), ?_, rfl⟩
        exact List.mem_of_getElem? (List.getElem?_zip_eq_some.mpr ⟨ha, by simpa using hb'⟩)
      have hab : a ≤ b := by
        by_contra hlt
        push Not at hlt
        have h1 := abs_le.mp (hstep i a b ha hb')
        rw [abs_of_neg (by linarith)] at h1
        have h2 := sum_le_of_one D (δ + ε) (ε - δ) hup (b - a) hmem (by linarith [h1.1])
        rw [htot, hDlen] at h2
        nlinarith
      refine ⟨hab, ?_⟩
      have := hstep i a b ha hb'
      rwa [abs_of_nonneg (by linarith : (0 : ℚ) ≤ b - a)] at this

/-- **C50** (short ranges): fewer than two numbers are no linspace, neither for integers nor for
floating-point numbers, whereas they are a range of consecutive integers. -/
theorem C50_short (u : ℚ) (l : List Int) (k : List ℚ) (hl : l.length < 2) (hk : k.length < 2) :
    islinspaceInt l = false ∧ islinspaceRat u k = false ∧ isarange l = true := by
  match l, k, hl, hk with
  | [], [], _, _ => simp [islinspaceInt, islinspaceRat, isarange]
  | [_], [], _, _ => simp [islinspaceInt, islinspaceRat, isarange]
  | [], [_], _, _ => simp [islinspaceInt, islinspaceRat, isarange]
  | [_], [_], _, _ => simp [islinspaceInt, islinspaceRat, isarange]

example := C50_short (1 / 1000) [7] [3] (by decide) (by decide)

/-- **C50** (completeness): two or more numbers at equal positive distance are accepted, whatever
the tolerance. -/
theorem C50_islinspace_accepts (u d : ℚ) (l : List ℚ) (hu : 0 ≤ u) (hd : 0 < d) (hl : 2 ≤ l.length)
    (hstep : ∀ (i : Nat) (a b : ℚ), l[i]? = some a → l[i + 1]? = some b → b - a = d) :
    islinspaceRat u l = true := by
  have hsum : ∀ (m : List ℚ) (a z : ℚ), m.head? = some a → m.getLast? = some z →
      (∀ (i : Nat) (a b : ℚ), m[i]? = some a → m[i + 1]? = some b → b - a = d) →
      z = a + ((m.length : ℚ) - 1) * d := by
    intro m
    induction m with
    | nil => intro a z h; simp at h
    | cons x r ih =>
      intro a z h1 h2 h3
      simp only [List.head?_cons, Option.some.injEq] at h1
      subst h1
      cases r with
      | nil => simp at h2; subst h2; simp
      | cons y t =>
        have := ih y z rfl (by simpa [List.getLast?_cons_cons] using h2) (fun i a b ha hb => h3 (i + 1) a b (by simpa using ha) (by simpa using hb))
        have h4 := h3 0 x y rfl rfl
        rw [this]
        simp only [List.length_cons]
        push_cast
        linear_combination h4
  match l, hl with
  | x :: y :: t, _ =>
    obtain ⟨z, hz⟩ : ∃ z, (x :: y :: t).getLast? = some z := ⟨_, List.getLast?_eq_some_getLast (by simp)⟩
    have hze := hsum _ x z rfl hz hstep
    have hn : (0 : ℚ) < (((x :: y :: t).length : ℚ) - 1) := by
      simp only [List.length_cons]; push_cast
      have : (0 : ℚ) ≤ t.length := Nat.cast_nonneg _
      linarith
    have hlt : ¬ z ≤ x := by
      rw [hze]
      have := mul_pos hn hd
      linarith
    have hdelta : (z - x) / (((x :: y :: t).length : ℚ) - 1) = d := by
      rw [hze]; field_simp; ring
    simp only [islinspaceRat, hz, hlt, if_false, hdelta]
    have hadj : ∀ (m : List ℚ),
        (∀ (i : Nat) (a b : ℚ), m[i]? = some a → m[i + 1]? = some b → b - a = d) →
        adjacentFind (fun a b => decide (u * (|x| + |z|) * 4 < abs (|b - a| - d))) m = false := by
      intro m
      induction m with
      | nil => intro _; rfl
      | cons a r ih =>
        intro h
        cases r with
        | nil => rfl
        | cons b r =>
          simp only [adjacentFind, Bool.or_eq_false_iff, decide_eq_false_iff_not, not_lt]
          refine ⟨?_, ih (fun i a b ha hb => h (i + 1) a b (by simpa using ha) (by simpa using hb))⟩
          rw [h 0 a b rfl rfl, abs_of_pos hd, sub_self, abs_zero]
          positivity
    rw [hadj _ hstep]
    rfl

example : islinspaceRat (1 / 1000) [1, 3 / 2, 2] = true :=
  C50_islinspace_accepts _ (1 / 2) _ (by norm_num) (by norm_num) (by decide) (by
    intro i a b ha hb
    match i with
    | 0 => simp at ha hb; subst ha hb; norm_num
    | 1 => simp at ha hb; subst ha hb; norm_num
    | i + 2 => simp at hb)

example := C50_islinspace_float (1 / 1000) [0, 1, 2, 3] 0 3 rfl rfl (by norm_num) (by decide +kernel)

example : isarange [3, 4, 5] = true ∧ islinspaceInt [3, 5, 7] = true ∧ islinspaceInt [3, 5, 8] = false ∧
    isarange [2, 2] = false ∧ isarange [7] = true := by decide

/-- A case meeting the hypotheses of `C50_islinspace_float`. -/
example : islinspaceRat (1 / 1000) [0, 1, 2, 3] = true ∧
    ((([0, 1, 2, 3] : List ℚ).length : ℚ) - 1) * ((1 / 1000) * (|0| + |3|) * 4) <
      2 * ((3 - 0) / ((([0, 1, 2, 3] : List ℚ).length : ℚ) - 1)) := by
  refine ⟨by decide +kernel, ?_⟩
  norm_num

end Scipp.Props
