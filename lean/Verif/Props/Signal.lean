import Verif.Model.Signal
import Mathlib.Tactic.Linarith
import Mathlib.Tactic.Ring
import Mathlib.Tactic.FieldSimp
import Mathlib.Tactic.NormNum
import Mathlib.Tactic.SplitIfs
import Mathlib.Tactic.ByContra
import Mathlib.Algebra.Order.Field.Basic
/-!
C134: filters for signals.
-/
namespace Scipp.Props
open Scipp Scipp.Signal

/-- Neighbours differ by `d`. -/
def c134Regular (d : ℚ) (l : List ℚ) : Prop := ∀ (i : Nat) (x y : ℚ), l[i]? = some x → l[i + 1]? = some y → y - x = d

theorem gaps_last (d : ℚ) (l : List ℚ) : ∀ a, gaps d (a :: l) = true →
    (a :: l).getLast (List.cons_ne_nil a l) - a ≤ l.length * d ∧
    ((a :: l).getLast (List.cons_ne_nil a l) - a = l.length * d → c134Regular d (a :: l)) := by
  induction l with
  | nil =>
    intro a _
    refine ⟨by simp, fun _ i x y hx hy => ?_⟩
    simp at hy
  | cons b l ih =>
    intro a h
    rw [gaps, Bool.and_eq_true, decide_eq_true_eq] at h
    obtain ⟨h1, h2⟩ := ih b h.2
    have hle : b - a ≤ d := h.1 ▸ le_abs_self (b - a)
    rw [List.getLast_cons (List.cons_ne_nil b l)]
    have hlen : (((b :: l).length : Nat) : ℚ) = l.length + 1 := by simp
    rw [hlen]
    refine ⟨by linarith, fun he i x y hx hy => ?_⟩
    have e1 : b - a = d := by linarith
    have e2 : (b :: l).getLast (List.cons_ne_nil b l) - b = l.length * d := by linarith
    cases i with
    | zero =>
      simp at hx hy
      rw [← hx, ← hy]
      exact e1
    | succ i =>
      exact h2 e2 i x y (by simpa using hx) (by simpa using hy)

/-- The sampling frequency is the inverse of the distance of neighbours. -/
theorem frequency_ok (c : Coord) (hi : c.int = false) (fs : ℚ) (h : frequency c = .ok fs) : 0 < fs ∧ c134Regular (1 / fs) c.values ∧ 2 ≤ c.values.length := by
  unfold frequency at h
  split at h
  · rename_i hl
    have hfs := Except.ok.inj h
    unfold islinspace at hl
    obtain ⟨values, int, unit⟩ := c
    simp only at hi hl hfs ⊢
    subst hi
    match values, hl, hfs with
    | a :: b :: l, hl, hfs =>
      simp only at hl
      split at hl
      · cases hl
      · rename_i hlt
        rw [if_neg (by simp)] at hl
        have hlast : ((a :: b :: l).getLast?.getD 0) = (b :: l).getLast (List.cons_ne_nil b l) := by
          rw [List.getLast?_eq_some_getLast (List.cons_ne_nil a (b :: l)), Option.getD_some, List.getLast_cons (List.cons_ne_nil b l)]
        rw [hlast] at hfs
        simp only [List.length_cons, Nat.add_sub_cancel, List.head?_cons, Option.getD_some] at hfs
        generalize hL : (b :: l).getLast (List.cons_ne_nil b l) = L at *
        have hpos : 0 < L - a := by linarith [not_le.1 hlt]
        have hn : (0 : ℚ) < ((l.length + 1 : Nat) : ℚ) := by exact_mod_cast Nat.succ_pos _
        have hinv : 1 / fs = (L - a) / ((l.length + 1 : Nat) : ℚ) := by
          rw [← hfs, one_div_div]
        refine ⟨hfs ▸ div_pos hn hpos, ?_, by simp⟩
        rw [hinv]
        refine (gaps_last _ (b :: l) a hl).2 ?_
        rw [List.getLast_cons (List.cons_ne_nil b l), hL, List.length_cons, mul_div_cancel₀ _ (ne_of_gt hn)]
    | [a], hl, _ => simp at hl
    | [], hl, _ => simp at hl
  · cases h

theorem signal_toUnit (rnd : ℚ → Int) (w : Scalar) (u : FUnit) (x : ℚ) (h : Signal.toUnit rnd w u = .ok x) (hi : w.int = false ∨ w.unit = u) (hu : u.scale ≠ 0) :
    x * u.scale = w.value * w.unit.scale ∧ w.unit.kind = u.kind := by
  unfold Signal.toUnit at h
  split at h
  · rename_i he
    rw [← Except.ok.inj h, he]
    exact ⟨rfl, rfl⟩
  · rename_i hne
    split at h
    · cases h
    · rename_i hk
      rcases hi with hi | hi
      · rw [hi, if_neg (by simp)] at h
        rw [← Except.ok.inj h]
        exact ⟨by field_simp, not_not.1 hk⟩
      · exact absurd hi.symm hne

/-- **C134** (partial: the coord is not of integers, and an integer frequency has the unit which is needed) The filter is designed for the sampled data: neighbours of the coord are at equal distance, and the ratio of frequencies passed to SciPy is the given frequency times that distance, as physical quantities, whatever the units. -/
theorem C134_frequency_partial {F : Type} (rnd : ℚ → Int) (design : ℚ → ℚ → Except Err F) (c : Coord) (w : Scalar) (s : SOS F) (h : butter rnd design c w = .ok s)
    (hc : c.int = false) (hi : w.int = false ∨ w.unit = c.unit.inv) (hs : 0 < c.unit.scale) :
    s.coord = c ∧ w.unit.kind = -c.unit.kind ∧ 2 ≤ c.values.length ∧
    ∃ wn fs d, design wn fs = .ok s.sos ∧ 0 < d ∧ c134Regular d c.values ∧ fs = 1 / d ∧ wn / fs = (w.value * w.unit.scale) * (d * c.unit.scale) := by
  unfold butter at h
  split at h
  · cases h
  · rename_i fs hfs
    split at h
    · cases h
    · rename_i wn hwn
      split at h
      · cases h
      · rename_i f hf
        have hinv : (c.unit.inv).scale = 1 / c.unit.scale := rfl
        obtain ⟨e1, e2⟩ := signal_toUnit rnd w c.unit.inv wn hwn hi (by rw [hinv]; exact ne_of_gt (one_div_pos.2 hs))
        obtain ⟨p1, p2, p3⟩ := frequency_ok c hc fs hfs
        rw [← Except.ok.inj h]
        refine ⟨rfl, e2, p3, wn, fs, 1 / fs, hf, one_div_pos.2 p1, p2, (one_div_one_div fs).symm, ?_⟩
        rw [← e1, hinv]
        have := ne_of_gt hs
        field_simp

theorem regular_gaps (d : ℚ) (hd : 0 ≤ d) (l : List ℚ) : ∀ a, c134Regular d (a :: l) → gaps d (a :: l) = true ∧ (a :: l).getLast (List.cons_ne_nil a l) - a = l.length * d := by
  induction l with
  | nil => intro a _; simp [gaps]
  | cons b l ih =>
    intro a h
    have e : b - a = d := h 0 a b rfl rfl
    obtain ⟨h1, h2⟩ := ih b (fun i x y hx hy => h (i + 1) x y (by simpa using hx) (by simpa using hy))
    rw [gaps, h1, Bool.and_true, decide_eq_true_eq, e, abs_of_nonneg hd, List.getLast_cons (List.cons_ne_nil b l)]
    refine ⟨rfl, ?_⟩
    have hlen : (((b :: l).length : Nat) : ℚ) = l.length + 1 := by simp
    rw [hlen]
    linarith

/-- **C134** Every regular coord is accepted, of integers or not; its frequency is the inverse of the distance. -/
theorem C134_accepts (c : Coord) (d : ℚ) (hd : 0 < d) (hr : c134Regular d c.values) (hl : 2 ≤ c.values.length) : frequency c = .ok (1 / d) := by
  obtain ⟨values, int, unit⟩ := c
  simp only at hr hl
  match values, hr, hl with
  | a :: b :: l, hr, _ =>
    obtain ⟨h1, h2⟩ := regular_gaps d (le_of_lt hd) (b :: l) a hr
    have e : b - a = d := hr 0 a b rfl rfl
    rw [List.getLast_cons (List.cons_ne_nil b l)] at h2
    have hlast : ((a :: b :: l).getLast?.getD 0) = (b :: l).getLast (List.cons_ne_nil b l) := by
      rw [List.getLast?_eq_some_getLast (List.cons_ne_nil a (b :: l)), Option.getD_some, List.getLast_cons (List.cons_ne_nil b l)]
    have hn : (0 : ℚ) < ((l.length + 1 : Nat) : ℚ) := by exact_mod_cast Nat.succ_pos _
    rw [List.length_cons] at h2
    have hlin : islinspace ⟨a :: b :: l, int, unit⟩ = true := by
      simp only [islinspace]
      rw [if_neg (by have := mul_pos hn hd; intro h; linarith), h2, e, mul_div_cancel_left₀ d (ne_of_gt hn), h1]
      simp
    unfold frequency
    rw [if_pos hlin]
    simp only [hlast, List.head?_cons, Option.getD_some, List.length_cons, Nat.add_sub_cancel]
    rw [h2]
    have := ne_of_gt hn
    have := ne_of_gt hd
    congr 1
    field_simp

/-- **C134** Data which are not sampled regularly, and frequencies of another kind, are rejected. -/
theorem C134_rejects {F : Type} (rnd : ℚ → Int) (design : ℚ → ℚ → Except Err F) (c : Coord) (w : Scalar) :
    (c.int = false → (∀ d, 0 < d → ¬ c134Regular d c.values) → butter rnd design c w = .error .invalidArgument) ∧
    (c.values.length < 2 → butter rnd design c w = .error .invalidArgument) ∧
    (w.unit.kind ≠ -c.unit.kind → ∃ e, butter rnd design c w = .error e ∧ (islinspace c = true → e = .unit)) := by
  have hno : islinspace c = false → butter rnd design c w = .error .invalidArgument := by
    intro h
    unfold butter frequency
    rw [h]
    rfl
  refine ⟨fun hi hd => ?_, fun hl => ?_, fun hk => ?_⟩
  · cases hl : islinspace c with
    | false => exact hno hl
    | true =>
      have hf : ∃ fs, frequency c = .ok fs := by
        unfold frequency
        rw [if_pos hl]
        exact ⟨_, rfl⟩
      obtain ⟨fs, hfs⟩ := hf
      obtain ⟨p1, p2, _⟩ := frequency_ok c hi fs hfs
      exact absurd p2 (hd _ (one_div_pos.2 p1))
  · apply hno
    unfold islinspace
    match hv : c.values with
    | [] => rfl
    | [a] => rfl
    | a :: b :: l => exact absurd hl (by rw [hv]; simp)
  · cases hl : islinspace c with
    | false => exact ⟨_, hno hl, fun h => (by cases h)⟩
    | true =>
      refine ⟨.unit, ?_, fun _ => rfl⟩
      unfold butter frequency Signal.toUnit
      have h1 : ¬ c.unit.inv = w.unit := fun e => hk (by rw [← e]; rfl)
      have h2 : w.unit.kind ≠ c.unit.inv.kind := hk
      rw [if_pos hl, if_neg h1, if_pos h2]

/-- **C134** A filter is applied only to data with the coord it was designed for, without variances or masks along the dim; nothing but the values changes. -/
theorem C134_applied {F D : Type} (apply : F → D → D) (da r : Arr D) (s : SOS F) :
    filterArr apply da s = .ok r ↔ da.variances = false ∧ da.coord = some s.coord ∧ da.size = s.coord.values.length ∧ (∀ m ∈ da.masks, m.2 = false) ∧ r = { da with data := apply s.sos da.data } := by
  obtain ⟨data, size, unit, coord, variances, masks⟩ := da
  unfold filterArr
  cases variances with
  | true => simp
  | false =>
    cases coord with
    | none => simp
    | some c =>
      by_cases hc : c = s.coord
      · subst hc
        by_cases hn : size = s.coord.values.length
        · by_cases hm : masks.any (·.2) = true
          · have hx : ¬ ∀ m ∈ masks, m.2 = false := by
              intro hall
              obtain ⟨m, h1, h2⟩ := List.any_eq_true.1 hm
              rw [hall m h1] at h2
              cases h2
            simp only [hm, hn]
            simp only [ne_eq, not_true_eq_false, if_false, Bool.false_eq_true, if_true, true_and]
            exact ⟨fun e => (by cases e), fun e => absurd e.1 hx⟩
          · have hx : ∀ m ∈ masks, m.2 = false := by
              intro m h1
              by_contra hb
              exact hm (List.any_eq_true.2 ⟨m, h1, by simpa using hb⟩)
            simp only [hm, hn]
            simp only [ne_eq, not_true_eq_false, if_false, Bool.false_eq_true, Except.ok.injEq, true_and]
            exact ⟨fun e => ⟨hx, e.symm⟩, fun e => e.2.symm⟩
        · simp [hn]
      · simp [hc]
        split_ifs <;> simp

/-- **C134** For a variable the result has the coord of the filter; bin edges are rejected. -/
theorem C134_variable {F D : Type} (apply : F → D → D) (data : D) (size : Nat) (unit : FUnit) (variances : Bool) (s : SOS F) (r : Arr D) :
    filterVar apply data size unit variances s = .ok r ↔ variances = false ∧ size = s.coord.values.length ∧ r = ⟨apply s.sos data, size, unit, some s.coord, false, []⟩ := by
  unfold filterVar
  split
  · rw [C134_applied]
    constructor
    · rintro ⟨h1, _, h2, _, h3⟩
      simp only at h1 h2 h3
      subst h1
      exact ⟨rfl, h2, h3⟩
    · rintro ⟨h1, h2, h3⟩
      subst h1
      exact ⟨rfl, rfl, h2, fun m hm => (by simp at hm), h3⟩
  · rename_i hn
    constructor
    · intro h; cases h
    · rintro ⟨_, h2, _⟩
      exact absurd (Or.inl h2.symm) hn

/-- **C134** Which error a variable gives if its size is not that of the coord: bin edges are told from others. -/
theorem C134_size {F D : Type} (apply : F → D → D) (data : D) (size : Nat) (unit : FUnit) (s : SOS F) :
    (s.coord.values.length = size + 1 → filterVar apply data size unit false s = .error .binEdge) ∧
    (s.coord.values.length ≠ size → s.coord.values.length ≠ size + 1 → filterVar apply data size unit false s = .error .dimension) := by
  refine ⟨fun h => ?_, fun h1 h2 => ?_⟩
  · unfold filterVar filterArr
    rw [if_pos (Or.inr h)]
    simp only [Bool.false_eq_true, if_false]
    rw [if_pos (by omega)]
  · unfold filterVar
    rw [if_neg (by rintro (h | h); exacts [h1 h, h2 h])]

/-! Cases: the design is the ratio of frequencies. -/

/-- A design which may fail, as in SciPy. -/
def c134Design (wn fs : ℚ) : Except Err ℚ := if 0 < wn ∧ 2 * wn < fs then .ok (wn / fs) else .error .invalidArgument

/-- Rounding, for the example. -/
def c134Round (x : ℚ) : Int := if x = 3 / 2 then 2 else 0

/-- Coord in millimeters: 0, 1/10, 2/10. -/
def c134Coord : Coord := ⟨[0, 1 / 10, 1 / 5], false, ⟨1, 1 / 1000⟩⟩

theorem c134_butter : butter c134Round c134Design c134Coord ⟨1500, false, ⟨-1, 1⟩⟩ = .ok ⟨c134Coord, 3 / 20⟩ := by decide +kernel

example := C134_frequency_partial c134Round c134Design c134Coord ⟨1500, false, ⟨-1, 1⟩⟩ _ c134_butter rfl (Or.inl rfl) (by decide +kernel)

example := (C134_rejects c134Round c134Design c134Coord ⟨1500, false, ⟨1, 1⟩⟩).2.2 (by decide)

example := (C134_applied (fun (f : ℚ) (d : ℚ) => f * d) ⟨2, 3, ⟨0, 1⟩, some c134Coord, false, [(1, false)]⟩ ⟨3 / 20 * 2, 3, ⟨0, 1⟩, some c134Coord, false, [(1, false)]⟩ ⟨c134Coord, 3 / 20⟩).2 ⟨rfl, rfl, rfl, by decide, rfl⟩

example := (C134_variable (fun (f : ℚ) (d : ℚ) => f * d) 2 3 ⟨0, 1⟩ false ⟨c134Coord, 3 / 20⟩ ⟨3 / 20 * 2, 3, ⟨0, 1⟩, some c134Coord, false, []⟩).2 ⟨rfl, rfl, rfl⟩

theorem c134_regular : c134Regular 2 [3, 5, 7] := by
  intro i x y hx hy
  match i, hx, hy with
  | 0, hx, hy => simp at hx hy; rw [← hx, ← hy]; norm_num
  | 1, hx, hy => simp at hx hy; rw [← hx, ← hy]; norm_num
  | i + 2, hx, hy => simp at hy

example := C134_accepts ⟨[3, 5, 7], true, ⟨1, 1⟩⟩ 2 (by norm_num) c134_regular (by decide)

example := (C134_size (fun (f : ℚ) (d : ℚ) => f * d) 2 2 ⟨0, 1⟩ ⟨c134Coord, 3 / 20⟩).1 rfl

/-- **C134** fails for an integer frequency in another unit: 1500/m is rounded to 2/mm. -/
theorem C134_wrong_integer : butter c134Round c134Design c134Coord ⟨1500, true, ⟨-1, 1⟩⟩ = .ok ⟨c134Coord, 1 / 5⟩ := by decide +kernel

/-- **C134** fails for integer coords: those going back and forth are accepted as regular. -/
theorem C134_wrong_coord : butter c134Round c134Design ⟨[0, 1, 0, 1, 2], true, ⟨1, 1⟩⟩ ⟨1 / 2, false, ⟨-1, 1⟩⟩ = .ok ⟨⟨[0, 1, 0, 1, 2], true, ⟨1, 1⟩⟩, 1 / 4⟩ := by decide +kernel

end Scipp.Props
