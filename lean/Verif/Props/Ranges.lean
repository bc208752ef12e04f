import Verif.Model.Ranges
import Mathlib.Tactic.Linarith
import Mathlib.Tactic.Ring
import Mathlib.Tactic.FieldSimp
import Mathlib.Tactic.NormNum
import Mathlib.Algebra.Order.Field.Basic
import Mathlib.Algebra.Order.Ring.Rat
/-!
C131: ranges of numbers with units.
-/
namespace Scipp.Props
open Scipp Scipp.Ranges

/-- The quantity given by a variable, in units of scale one. -/
def c131Quantity (v : Var) : ℚ := v.value * v.unit.scale

theorem toUnit_exact (rnd : ℚ → Int) (v : Var) (u : RUnit) (hu : u.scale ≠ 0) (x : ℚ) (h : toUnit rnd v u = .ok x) (hi : v.int = false ∨ v.unit = u) :
    x * u.scale = c131Quantity v ∧ v.unit.kind = u.kind := by
  unfold toUnit at h
  unfold c131Quantity
  split at h
  · rename_i he
    rw [← Except.ok.inj h, he]
    exact ⟨rfl, rfl⟩
  · rename_i he
    split at h
    · cases h
    · rename_i hk
      have hint : v.int = false := hi.resolve_right he
      rw [hint] at h
      simp only [Bool.false_eq_true, if_false] at h
      rw [← Except.ok.inj h]
      exact ⟨by field_simp, not_not.1 hk⟩

theorem toUnit?_ok (rnd : ℚ → Int) (u : RUnit) (v : Option Var) (x : Option ℚ) (h : toUnit? rnd u v = .ok x) :
    (v = none ∧ x = none) ∨ ∃ w y, v = some w ∧ x = some y ∧ toUnit rnd w u = .ok y := by
  cases v with
  | none => left; exact ⟨rfl, (Except.ok.inj h).symm⟩
  | some w =>
    right
    simp only [toUnit?] at h
    split at h
    · cases h
    · rename_i y hy
      exact ⟨w, y, rfl, (Except.ok.inj h).symm, hy⟩

theorem ensureSameUnit_ok (rnd : ℚ → Int) (unit : Option RUnit) (start stop step : Option Var) (n : Norm) (h : ensureSameUnit rnd unit start stop step = .ok n) :
    ∃ u, n.unit = some u ∧ (unit = some u ∨ unit = none ∧ ∀ v ∈ start.toList ++ stop.toList ++ step.toList, v.unit = u) ∧
      toUnit? rnd u start = .ok n.start ∧ toUnit? rnd u stop = .ok n.stop ∧ toUnit? rnd u step = .ok n.step := by
  unfold ensureSameUnit at h
  simp only at h
  split at h
  · cases h
  · rename_i u hu
    refine ⟨u, ?_⟩
    have hcommon : unit = some u ∨ unit = none ∧ ∀ v ∈ start.toList ++ stop.toList ++ step.toList, v.unit = u := by
      generalize start.toList ++ stop.toList ++ step.toList = l at hu ⊢
      split at hu
      · left; rw [Except.ok.inj hu]
      · cases hu
      · rename_i v rest
        split at hu
        · rename_i hall
          right
          refine ⟨rfl, ?_⟩
          rw [← Except.ok.inj hu]
          intro w hw
          rcases List.mem_cons.1 hw with rfl | hw
          · rfl
          · simpa using List.all_eq_true.1 hall w hw
        · cases hu
    split at h
    · rename_i a b c ha hb hc
      rw [← Except.ok.inj h]
      exact ⟨rfl, hcommon, ha, hb, hc⟩
    · cases h
    · cases h
    · cases h

/-- The requested unit, or else that of the arguments, with the quantities of all of them unchanged. -/
theorem ensureSameUnit_exact (rnd : ℚ → Int) (unit : Option RUnit) (start stop step : Option Var) (n : Norm) (h : ensureSameUnit rnd unit start stop step = .ok n)
    (hi : ∀ v ∈ start.toList ++ stop.toList ++ step.toList, (v.int = false ∨ unit = none) ∧ v.unit.scale ≠ 0) (hs : ∀ u, unit = some u → u.scale ≠ 0) (hne : start.toList ++ stop.toList ++ step.toList ≠ []) :
    ∃ u, n.unit = some u ∧ u.scale ≠ 0 ∧ (unit = some u ∨ unit = none ∧ ∀ v ∈ start.toList ++ stop.toList ++ step.toList, v.unit = u) ∧
      (∀ v, start = some v → ∃ x, n.start = some x ∧ x * u.scale = c131Quantity v ∧ v.unit.kind = u.kind) ∧
      (∀ v, stop = some v → ∃ x, n.stop = some x ∧ x * u.scale = c131Quantity v ∧ v.unit.kind = u.kind) ∧
      (∀ v, step = some v → ∃ x, n.step = some x ∧ x * u.scale = c131Quantity v ∧ v.unit.kind = u.kind) ∧
      (stop = none → n.stop = none) ∧ (step = none → n.step = none) := by
  obtain ⟨u, h1, h2, h3, h4, h5⟩ := ensureSameUnit_ok rnd unit start stop step n h
  have hu : u.scale ≠ 0 := by
    rcases h2 with h2 | ⟨_, h2⟩
    · exact hs u h2
    · obtain ⟨v, hv⟩ := List.exists_mem_of_ne_nil _ hne
      rw [← h2 v hv]
      exact (hi v hv).2
  have hcase : ∀ (o : Option Var) (x : Option ℚ), (∀ v, o = some v → v ∈ start.toList ++ stop.toList ++ step.toList) → toUnit? rnd u o = .ok x →
      ∀ v, o = some v → ∃ y, x = some y ∧ y * u.scale = c131Quantity v ∧ v.unit.kind = u.kind := by
    intro o x ho ht v hv
    rcases toUnit?_ok rnd u o x ht with ⟨h6, _⟩ | ⟨w, y, h6, h7, h8⟩
    · rw [hv] at h6; cases h6
    · rw [hv] at h6
      cases h6
      refine ⟨y, h7, toUnit_exact rnd v u hu y h8 ?_⟩
      have hm := ho v hv
      rcases (hi v hm).1 with h9 | h9
      · left; exact h9
      · right
        rcases h2 with h2 | ⟨_, h2⟩
        · rw [h9] at h2; cases h2
        · exact h2 v hm
  refine ⟨u, h1, hu, h2, hcase start _ ?_ h3, hcase stop _ ?_ h4, hcase step _ ?_ h5, ?_, ?_⟩
  · intro v hv; simp [hv]
  · intro v hv; simp [hv]
  · intro v hv; simp [hv]
  · intro hn; rw [hn] at h4; exact (Except.ok.inj h4).symm
  · intro hn; rw [hn] at h5; exact (Except.ok.inj h5).symm

theorem normalize_var (rnd : ℚ → Int) (unit : Option RUnit) (start : Var) (stop step : Option Var) (n : Norm) (h : normalize rnd unit (some (.var start)) (stop.map .var) (step.map .var) = .ok n) :
    ensureSameUnit rnd unit (some start) stop step = .ok n := by
  unfold normalize at h
  simp only at h
  split at h
  · split at h
    · cases h
    · split at h
      · cases h
      · have e : ∀ o : Option Var, (o.map Arg.var).bind Arg.var? = o := by intro o; cases o <;> rfl
        rw [e, e] at h
        exact h
  · rename_i hn
    exact absurd (by simp [Arg.var?]) hn

/-- **C131** (partial: for floating-point numbers, or if no unit is requested) A range with step contains exactly the quantities `start + k step` before the end, in the requested unit or else that of the arguments. -/
theorem C131_arange_partial (rnd : ℚ → Int) (unit : Option RUnit) (start stop step : Var) (vals : List ℚ) (ru : Option RUnit) (h : arange rnd unit (.var start) (some (.var stop)) (some (.var step)) = .ok (vals, ru))
    (hi : ∀ v ∈ [start, stop, step], (v.int = false ∨ unit = none) ∧ 0 < v.unit.scale) (hs : ∀ u, unit = some u → 0 < u.scale) (hpos : 0 < c131Quantity step) :
    ∃ u, ru = some u ∧ (unit = some u ∨ unit = none ∧ u = start.unit) ∧ (∀ v ∈ [start, stop, step], v.unit.kind = u.kind) ∧
      ∀ (k : Nat) x, vals[k]? = some x ↔ c131Quantity start + k * c131Quantity step < c131Quantity stop ∧ x * u.scale = c131Quantity start + k * c131Quantity step := by
  unfold arange at h
  split at h
  · cases h
  · rename_i n hn
    have hen := normalize_var rnd unit start (some stop) (some step) n hn
    obtain ⟨u, h1, hu, h2, h3, h4, h5, _, _⟩ := ensureSameUnit_exact rnd unit (some start) (some stop) (some step) n hen
      (fun v hv => ⟨(hi v (by simpa using hv)).1, ne_of_gt (hi v (by simpa using hv)).2⟩) (fun u hu => ne_of_gt (hs u hu)) (by simp)
    obtain ⟨a, ha, hqa, hka⟩ := h3 start rfl
    obtain ⟨b, hb, hqb, hkb⟩ := h4 stop rfl
    obtain ⟨d, hd, hqd, hkd⟩ := h5 step rfl
    have hupos : 0 < u.scale := by
      rcases h2 with h2 | ⟨_, h2⟩
      · exact hs u h2
      · rw [← h2 start (by simp)]; exact (hi start (by simp)).2
    have hdpos : 0 < d := by
      rw [← hqd] at hpos
      exact (pos_iff_pos_of_mul_pos hpos).2 hupos
    rw [ha, hb, hd] at h
    simp only [npArange, Option.isSome_some, if_true, Option.getD_some] at h
    rw [if_neg (ne_of_gt hdpos)] at h
    simp only [Except.ok.injEq, Prod.mk.injEq] at h
    obtain ⟨hv, hru⟩ := h
    refine ⟨u, by rw [← hru, h1], ?_, ?_, ?_⟩
    · rcases h2 with h2 | ⟨h2, h2'⟩
      · left; exact h2
      · right; exact ⟨h2, (h2' start (by simp)).symm⟩
    · intro v hv
      simp only [List.mem_cons, List.not_mem_nil, or_false] at hv
      rcases hv with rfl | rfl | rfl
      · exact hka
      · exact hkb
      · exact hkd
    · intro k x
      rw [← hv, ← hqa, ← hqb, ← hqd]
      have hlt : k < ⌈(b - a) / d⌉.toNat ↔ a * u.scale + k * (d * u.scale) < b * u.scale := by
        have e1 : k < ⌈(b - a) / d⌉.toNat ↔ (k : Int) < ⌈(b - a) / d⌉ := by omega
        rw [e1, Int.lt_ceil, lt_div_iff₀ hdpos]
        push_cast
        constructor
        · intro h'
          have := mul_lt_mul_of_pos_right h' hupos
          linarith
        · intro h'
          by_contra hc
          have := mul_le_mul_of_nonneg_right (not_lt.1 hc) hupos.le
          linarith
      rw [List.getElem?_map]
      by_cases hk : k < ⌈(b - a) / d⌉.toNat
      · rw [List.getElem?_range hk]
        simp only [Option.map_some, Option.some.injEq]
        constructor
        · rintro rfl
          exact ⟨hlt.1 hk, by ring⟩
        · rintro ⟨_, hx⟩
          have : x * u.scale = (a + k * d) * u.scale := by rw [hx]; ring
          exact (mul_right_cancel₀ hu this).symm
      · rw [List.getElem?_eq_none (by rw [List.length_range]; omega)]
        refine ⟨fun h' => (by cases h'), fun h' => absurd (hlt.2 h'.1) hk⟩

/-- **C131** (partial: for floating-point numbers, or if no unit is requested) `linspace` gives as many values as requested, evenly spaced from the first quantity, to the second if the end is included. -/
theorem C131_linspace_partial (rnd : ℚ → Int) (unit : Option RUnit) (start stop : Var) (num : Nat) (endpoint : Bool) (vals : List ℚ) (ru : Option RUnit) (h : linspace rnd unit (.var start) (.var stop) num endpoint = .ok (vals, ru))
    (hi : ∀ v ∈ [start, stop], (v.int = false ∨ unit = none) ∧ v.unit.scale ≠ 0) (hs : ∀ u, unit = some u → u.scale ≠ 0) :
    ∃ u, ru = some u ∧ (unit = some u ∨ unit = none ∧ u = start.unit) ∧ vals.length = num ∧
      ∃ width, (∀ (k : Nat) x, vals[k]? = some x → x * u.scale = c131Quantity start + k * width) ∧
        (endpoint = true → 2 ≤ num → c131Quantity start + ((num - 1 : Nat) : ℚ) * width = c131Quantity stop) ∧
        (endpoint = false → 1 ≤ num → c131Quantity start + (num : ℚ) * width = c131Quantity stop) := by
  unfold linspace at h
  split at h
  · cases h
  · rename_i n hn
    have hen := normalize_var rnd unit start (some stop) none n hn
    obtain ⟨u, h1, hu, h2, h3, h4, _, _, _⟩ := ensureSameUnit_exact rnd unit (some start) (some stop) none n hen
      (fun v hv => hi v (by simpa using hv)) hs (by simp)
    obtain ⟨a, ha, hqa, hka⟩ := h3 start rfl
    obtain ⟨b, hb, hqb, hkb⟩ := h4 stop rfl
    rw [ha, hb] at h
    simp only [Except.ok.injEq, Prod.mk.injEq] at h
    obtain ⟨hv, hru⟩ := h
    refine ⟨u, by rw [← hru, h1], ?_, by rw [← hv, List.length_map, List.length_range], (b - a) / (if endpoint then (num : ℚ) - 1 else num) * u.scale, ?_, ?_, ?_⟩
    · rcases h2 with h2 | ⟨h2, h2'⟩
      · left; exact h2
      · right; exact ⟨h2, (h2' start (by simp)).symm⟩
    · intro k x hx
      rw [← hv, List.getElem?_map] at hx
      obtain ⟨k', hk', rfl⟩ := Option.map_eq_some_iff.1 hx
      obtain ⟨hlt, he⟩ := List.getElem?_eq_some_iff.1 hk'
      rw [List.getElem_range] at he
      rw [← he, ← hqa]
      ring
    · intro he hnum
      rw [he, ← hqa, ← hqb, Nat.cast_sub (by omega)]
      have : (num : ℚ) - 1 ≠ 0 := by
        have : (2 : ℚ) ≤ num := by exact_mod_cast hnum
        linarith
      simp only [if_true, Nat.cast_one]
      field_simp
      ring
    · intro he hnum
      rw [he, ← hqa, ← hqb]
      have : (num : ℚ) ≠ 0 := by
        have : (1 : ℚ) ≤ num := by exact_mod_cast hnum
        linarith
      simp only [Bool.false_eq_true, if_false]
      field_simp
      ring

/-- **C131** Numbers and variables cannot be mixed, variances and different units (unless a unit is requested) are rejected, and so are units of other kind than that requested. -/
theorem C131_rejects (rnd : ℚ → Int) (unit : Option RUnit) (start stop step : Var) (x : ℚ) :
    arange rnd unit (.var start) (some (.num x)) none = .error .dtype ∧
    arange rnd unit (.num x) (some (.var stop)) none = .error .dtype ∧
    (start.variances = true ∨ stop.variances = true ∨ step.variances = true → arange rnd unit (.var start) (some (.var stop)) (some (.var step)) = .error .variances) ∧
    (start.variances = false → stop.variances = false → step.variances = false →
      (start.unit ≠ stop.unit ∨ start.unit ≠ step.unit → arange rnd none (.var start) (some (.var stop)) (some (.var step)) = .error .unit) ∧
      (∀ u, start.unit.kind ≠ u.kind → arange rnd (some u) (.var start) (some (.var stop)) (some (.var step)) = .error .unit)) := by
  refine ⟨rfl, rfl, ?_, ?_⟩
  · intro h
    have : normalize rnd unit (some (.var start)) (some (.var stop)) (some (.var step)) = .error .variances := by
      simp [normalize, Arg.var?, h]
    unfold arange
    rw [this]
  · intro h1 h2 h3
    have hn : ∀ unit, normalize rnd unit (some (.var start)) (some (.var stop)) (some (.var step)) = ensureSameUnit rnd unit (some start) (some stop) (some step) := by
      intro unit
      simp [normalize, Arg.var?, h1, h2, h3]
    constructor
    · intro hd
      unfold arange
      rw [hn]
      have : ensureSameUnit rnd none (some start) (some stop) (some step) = .error .unit := by
        simp only [ensureSameUnit, Option.toList_some, List.cons_append, List.nil_append]
        rw [if_neg]
        simp only [List.all_cons, List.all_nil, Bool.and_true, Bool.and_eq_true, beq_iff_eq]
        rintro ⟨e1, e2⟩
        rcases hd with hd | hd
        · exact hd e1.symm
        · exact hd e2.symm
      rw [this]
    · intro u hk
      unfold arange
      rw [hn]
      have ht : toUnit? rnd u (some start) = .error .unit := by
        simp only [toUnit?, toUnit]
        rw [if_neg (fun e => hk (by rw [e])), if_pos hk]
      have : ensureSameUnit rnd (some u) (some start) (some stop) (some step) = .error .unit := by
        simp only [ensureSameUnit, ht]
      rw [this]

/-- **C131** A range of plain numbers has the requested unit, numbers are not changed. -/
theorem C131_numbers (rnd : ℚ → Int) (unit : Option RUnit) (a b d : ℚ) (hd : 0 < d) :
    ∃ vals, arange rnd unit (.num a) (some (.num b)) (some (.num d)) = .ok (vals, unit) ∧ ∀ (k : Nat) x, vals[k]? = some x ↔ a + k * d < b ∧ x = a + k * d := by
  refine ⟨(List.range ⌈(b - a) / d⌉.toNat).map (fun (k : Nat) => a + k * d), ?_, ?_⟩
  · simp [arange, normalize, Arg.var?, Arg.num?, npArange, ne_of_gt hd]
  · intro k x
    have hlt : k < ⌈(b - a) / d⌉.toNat ↔ a + k * d < b := by
      have e1 : k < ⌈(b - a) / d⌉.toNat ↔ (k : Int) < ⌈(b - a) / d⌉ := by omega
      rw [e1, Int.lt_ceil, lt_div_iff₀ hd]
      push_cast
      constructor <;> intro h' <;> linarith
    rw [List.getElem?_map]
    by_cases hk : k < ⌈(b - a) / d⌉.toNat
    · rw [List.getElem?_range hk]
      simp only [Option.map_some, Option.some.injEq]
      exact ⟨fun e => ⟨hlt.1 hk, e.symm⟩, fun e => e.2.symm⟩
    · rw [List.getElem?_eq_none (by rw [List.length_range]; omega)]
      exact ⟨fun h' => (by cases h'), fun h' => absurd (hlt.2 h'.1) hk⟩

/-- **C131** Arguments left out: a single one is the end, the start is then zero; the step is one, in the unit of the result. -/
theorem C131_defaults (rnd : ℚ → Int) (unit : Option RUnit) (a b d : ℚ) (start : Var) (hv : start.variances = false) :
    arange rnd unit (.num b) none none = arange rnd unit (.num 0) (some (.num b)) (some (.num 1)) ∧
    arange rnd unit (.num b) none (some (.num d)) = arange rnd unit (.num 0) (some (.num b)) (some (.num d)) ∧
    arange rnd unit (.num a) (some (.num b)) none = arange rnd unit (.num a) (some (.num b)) (some (.num 1)) ∧
    arange rnd none (.var start) none none = arange rnd (some start.unit) (.num 0) (some (.num start.value)) (some (.num 1)) := by
  refine ⟨?_, ?_, ?_, ?_⟩
  · simp [arange, normalize, Arg.var?, Arg.num?, npArange]
  · simp [arange, normalize, Arg.var?, Arg.num?, npArange]
  · simp [arange, normalize, Arg.var?, Arg.num?, npArange]
  · simp [arange, normalize, Arg.var?, Arg.num?, npArange, ensureSameUnit, toUnit?, Ranges.toUnit, hv]

/-! Cases meeting the hypotheses: meters and millimeters. -/

/-- Meter. -/
def c131m : RUnit := ⟨1, 1⟩

/-- Millimeter. -/
def c131mm : RUnit := ⟨1, 1 / 1000⟩

/-- **C131** fails for integers if a unit is requested: start, stop and step are rounded, e.g., from 0 to 3000 mm with step 1500 mm in m gives 0 m and 2 m, for any rounding of 1.5 to 2. -/
theorem C131_wrong_integer (rnd : ℚ → Int) (h0 : rnd 0 = 0) (h1 : rnd (3 / 2) = 2) (h2 : rnd 3 = 3) :
    arange rnd (some c131m) (.var ⟨0, c131mm, true, false⟩) (some (.var ⟨3000, c131mm, true, false⟩)) (some (.var ⟨1500, c131mm, true, false⟩)) = .ok ([0, 2], some c131m) := by
  have e1 : toUnit rnd ⟨0, c131mm, true, false⟩ c131m = .ok 0 := by
    have : (0 : ℚ) * (1 / 1000) / 1 = 0 := by norm_num
    simp [toUnit, c131m, c131mm, h0]
  have e2 : toUnit rnd ⟨3000, c131mm, true, false⟩ c131m = .ok 3 := by
    have : (3000 : ℚ) * (1 / 1000) / 1 = 3 := by norm_num
    have hne : ¬ c131mm = c131m := by decide +kernel
    unfold toUnit
    simp only [if_neg hne]
    show (if (1 : Nat) ≠ 1 then _ else _) = _
    rw [if_neg (by simp)]
    show Except.ok ((rnd ((3000 : ℚ) * (1 / 1000) / 1) : Int) : ℚ) = _
    rw [this, h2]
    rfl
  have e3 : toUnit rnd ⟨1500, c131mm, true, false⟩ c131m = .ok 2 := by
    have : (1500 : ℚ) * (1 / 1000) / 1 = 3 / 2 := by norm_num
    have hne : ¬ c131mm = c131m := by decide +kernel
    unfold toUnit
    simp only [if_neg hne]
    show (if (1 : Nat) ≠ 1 then _ else _) = _
    rw [if_neg (by simp)]
    show Except.ok ((rnd ((1500 : ℚ) * (1 / 1000) / 1) : Int) : ℚ) = _
    rw [this, h1]
    rfl
  have hn : normalize rnd (some c131m) (some (.var ⟨0, c131mm, true, false⟩)) (some (.var ⟨3000, c131mm, true, false⟩)) (some (.var ⟨1500, c131mm, true, false⟩)) = .ok ⟨some 0, some 3, some 2, some c131m⟩ := by
    simp [normalize, Arg.var?, ensureSameUnit, toUnit?, e1, e2, e3]
  have hv : npArange (some 0) (some 3) (some 2) = .ok [0, 2] := by decide +kernel
  unfold arange
  rw [hn]
  simp only
  rw [hv]

/-- The same for floating-point numbers: 0 m and 1.5 m. -/
theorem c131_float : arange (fun x => ⌊x⌋) (some c131m) (.var ⟨0, c131mm, false, false⟩) (some (.var ⟨3000, c131mm, false, false⟩)) (some (.var ⟨1500, c131mm, false, false⟩)) = .ok ([0, 3 / 2], some c131m) := by decide +kernel

example := C131_arange_partial (fun x => ⌊x⌋) (some c131m) ⟨0, c131mm, false, false⟩ ⟨3000, c131mm, false, false⟩ ⟨1500, c131mm, false, false⟩ _ _ c131_float
  (by decide +kernel) (by intro u hu; rw [← Option.some.inj hu]; decide +kernel) (by decide +kernel)

example : linspace (fun x => ⌊x⌋) none (.var ⟨0, c131mm, true, false⟩) (.var ⟨3, c131mm, true, false⟩) 3 true = .ok ([0, 3 / 2, 3], some c131mm) := by decide +kernel

example := C131_numbers (fun x => ⌊x⌋) none 1 5 (1 / 2) (by decide +kernel)

example := C131_defaults (fun _ => 0) none 1 5 2 ⟨3, c131m, false, false⟩ rfl

end Scipp.Props
