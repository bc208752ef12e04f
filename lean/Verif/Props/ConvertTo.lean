import Verif.Model.ConvertTo
import Mathlib.Algebra.Field.Rat
import Mathlib.Data.Rat.Floor
/-!
C132: conversion of unit and dtype at once.
-/
namespace Scipp.Props
open Scipp Scipp.ConvertTo

/-- Rank of a dtype: how much it can hold. -/
def c132Rank : DT → Option Nat
  | .int32 => some 0
  | .int64 => some 1
  | .float32 => some 2
  | .float64 => some 3
  | .other _ => none

theorem astype_ok {V U : Type} (cast : DT → DT → V → Except Err V) (v : Var V U) (d : DT) (copy : Bool) (f : Nat) (r : Var V U) (h : astype cast v d copy f = .ok r) :
    r.elem = d ∧ r.unit = v.unit ∧ r.binned = v.binned ∧ (d = v.elem → r.val = v.val ∧ r.buf = if copy then f else v.buf) ∧ (d ≠ v.elem → cast v.elem d v.val = .ok r.val ∧ r.buf = f) := by
  unfold astype at h
  split at h
  · rename_i he
    rw [← Except.ok.inj h]
    cases copy with
    | true => exact ⟨he.symm, rfl, rfl, fun _ => ⟨rfl, rfl⟩, fun hn => absurd he hn⟩
    | false => exact ⟨he.symm, rfl, rfl, fun _ => ⟨rfl, rfl⟩, fun hn => absurd he hn⟩
  · rename_i he
    split at h
    · cases h
    · rename_i x hx
      rw [← Except.ok.inj h]
      exact ⟨rfl, rfl, rfl, fun hn => absurd hn he, fun _ => ⟨hx, rfl⟩⟩

theorem toUnit_ok {V U : Type} [DecidableEq U] (conv : DT → U → U → V → Except Err V) (v : Var V U) (u : U) (copy : Bool) (f : Nat) (r : Var V U) (h : ConvertTo.toUnit conv v u copy f = .ok r) :
    r.unit = u ∧ r.elem = v.elem ∧ r.binned = v.binned ∧ (u = v.unit → r.val = v.val ∧ r.buf = if copy then f else v.buf) ∧ (u ≠ v.unit → conv v.elem v.unit u v.val = .ok r.val ∧ r.buf = f) := by
  unfold ConvertTo.toUnit at h
  split at h
  · rename_i he
    rw [← Except.ok.inj h]
    cases copy with
    | true => exact ⟨he.symm, rfl, rfl, fun _ => ⟨rfl, rfl⟩, fun hn => absurd he hn⟩
    | false => exact ⟨he.symm, rfl, rfl, fun _ => ⟨rfl, rfl⟩, fun hn => absurd he hn⟩
  · rename_i he
    split at h
    · cases h
    · rename_i x hx
      rw [← Except.ok.inj h]
      exact ⟨rfl, rfl, rfl, fun hn => absurd hn he, fun _ => ⟨hx, rfl⟩⟩

/-- What happened in a conversion of both: in either order. -/
theorem to_both {V U : Type} [DecidableEq U] (cast : DT → DT → V → Except Err V) (conv : DT → U → U → V → Except Err V) (v : Var V U) (u : U) (d : DT) (copy : Bool) (f1 f2 : Nat) (r : Var V U)
    (h : convertTo cast conv v (some u) (some d) copy f1 f2 = .ok r) :
    (dtypeFirst v.dtype d = true ∧ ∃ w, astype cast v d copy f1 = .ok w ∧ ConvertTo.toUnit conv w u false f2 = .ok r) ∨
    (dtypeFirst v.dtype d = false ∧ ∃ w, ConvertTo.toUnit conv v u copy f1 = .ok w ∧ astype cast w d false f2 = .ok r) := by
  simp only [convertTo] at h
  cases hf : dtypeFirst v.dtype d with
  | true =>
    left
    rw [hf, if_pos rfl] at h
    split at h
    · cases h
    · rename_i w hw
      exact ⟨rfl, w, hw, h⟩
  | false =>
    right
    rw [hf, if_neg (by simp)] at h
    split at h
    · cases h
    · rename_i w hw
      exact ⟨rfl, w, hw, h⟩

/-- **C132** The result has the requested unit and dtype; what is not requested is unchanged, and so is the structure of bins. -/
theorem C132_requested {V U : Type} [DecidableEq U] (cast : DT → DT → V → Except Err V) (conv : DT → U → U → V → Except Err V) (v : Var V U) (unit : Option U) (dtype : Option DT) (copy : Bool) (f1 f2 : Nat) (r : Var V U)
    (h : convertTo cast conv v unit dtype copy f1 f2 = .ok r) : r.unit = unit.getD v.unit ∧ r.elem = dtype.getD v.elem ∧ r.binned = v.binned := by
  cases unit with
  | none =>
    cases dtype with
    | none => cases h
    | some d =>
      obtain ⟨h1, h2, h3, _⟩ := astype_ok cast v d copy f1 r h
      exact ⟨h2, h1, h3⟩
  | some u =>
    cases dtype with
    | none =>
      obtain ⟨h1, h2, h3, _⟩ := toUnit_ok conv v u copy f1 r h
      exact ⟨h1, h2, h3⟩
    | some d =>
      rcases to_both cast conv v u d copy f1 f2 r h with ⟨_, w, hw, hr⟩ | ⟨_, w, hw, hr⟩
      · obtain ⟨h1, h2, h3, _⟩ := astype_ok cast v d copy f1 w hw
        obtain ⟨h4, h5, h6, _⟩ := toUnit_ok conv w u false f2 r hr
        exact ⟨h4, by rw [h5, h1]; rfl, by rw [h6, h3]⟩
      · obtain ⟨h1, h2, h3, _⟩ := toUnit_ok conv v u copy f1 w hw
        obtain ⟨h4, h5, h6, _⟩ := astype_ok cast w d false f2 r hr
        exact ⟨by rw [h5, h1]; rfl, h4, by rw [h6, h3]⟩

/-- **C132** Copies: the result is a new object if a copy is requested, or if anything is changed; otherwise it is the input. -/
theorem C132_copy {V U : Type} [DecidableEq U] (cast : DT → DT → V → Except Err V) (conv : DT → U → U → V → Except Err V) (v : Var V U) (unit : Option U) (dtype : Option DT) (copy : Bool) (f1 f2 : Nat) (r : Var V U)
    (h : convertTo cast conv v unit dtype copy f1 f2 = .ok r) (hf1 : f1 ≠ v.buf) (hf2 : f2 ≠ v.buf) :
    r.buf = v.buf ↔ copy = false ∧ unit.getD v.unit = v.unit ∧ dtype.getD v.elem = v.elem := by
  cases unit with
  | none =>
    cases dtype with
    | none => cases h
    | some d =>
      obtain ⟨_, _, _, h4, h5⟩ := astype_ok cast v d copy f1 r h
      simp only [Option.getD_none, Option.getD_some, true_and]
      by_cases hd : d = v.elem
      · rw [(h4 hd).2]
        cases copy <;> simp [hd, hf1]
      · rw [(h5 hd).2]
        simp [hd, hf1]
  | some u =>
    cases dtype with
    | none =>
      obtain ⟨_, _, _, h4, h5⟩ := toUnit_ok conv v u copy f1 r h
      simp only [Option.getD_none, Option.getD_some, and_true]
      by_cases hd : u = v.unit
      · rw [(h4 hd).2]
        cases copy <;> simp [hd, hf1]
      · rw [(h5 hd).2]
        simp [hd, hf1]
    | some d =>
      simp only [Option.getD_some]
      rcases to_both cast conv v u d copy f1 f2 r h with ⟨_, w, hw, hr⟩ | ⟨_, w, hw, hr⟩
      · obtain ⟨_, hwu, _, h4, h5⟩ := astype_ok cast v d copy f1 w hw
        obtain ⟨_, _, _, h6, h7⟩ := toUnit_ok conv w u false f2 r hr
        rw [hwu] at h6 h7
        by_cases hu : u = v.unit
        · have : r.buf = w.buf := (h6 hu).2
          rw [this]
          by_cases hd : d = v.elem
          · rw [(h4 hd).2]
            cases copy <;> simp [hu, hd, hf1]
          · rw [(h5 hd).2]
            simp [hd, hf1]
        · rw [(h7 hu).2]
          simp [hu, hf2]
      · obtain ⟨_, hwe, _, h4, h5⟩ := toUnit_ok conv v u copy f1 w hw
        obtain ⟨_, _, _, h6, h7⟩ := astype_ok cast w d false f2 r hr
        rw [hwe] at h6 h7
        by_cases hd : d = v.elem
        · have : r.buf = w.buf := (h6 hd).2
          rw [this]
          by_cases hu : u = v.unit
          · rw [(h4 hu).2]
            cases copy <;> simp [hu, hd, hf1]
          · rw [(h5 hu).2]
            simp [hu, hf1]
        · rw [(h7 hd).2]
          simp [hd, hf2]

theorem dtypeFirst_rank (own target : DT) (a b : Nat) (ha : c132Rank own = some a) (hb : c132Rank target = some b) : dtypeFirst own target = decide (a ≤ b) := by
  cases own <;> cases target <;> simp [c132Rank] at ha hb <;> subst ha <;> subst hb <;> rfl

/-- **C132** (partial: if not binned) The unit is converted in the larger one of both dtypes: after the conversion to a dtype which can hold as much or more, before it otherwise. -/
theorem C132_widest_partial {V U : Type} [DecidableEq U] (cast : DT → DT → V → Except Err V) (conv : DT → U → U → V → Except Err V) (v : Var V U) (u : U) (d : DT) (copy : Bool) (f1 f2 : Nat) (r : Var V U)
    (h : convertTo cast conv v (some u) (some d) copy f1 f2 = .ok r) (hbin : v.binned = false) (hu : u ≠ v.unit) (hd : d ≠ v.elem) (a b : Nat) (ha : c132Rank v.elem = some a) (hb : c132Rank d = some b) :
    (a < b → ∃ x, cast v.elem d v.val = .ok x ∧ conv d v.unit u x = .ok r.val) ∧
    (b < a → ∃ x, conv v.elem v.unit u v.val = .ok x ∧ cast v.elem d x = .ok r.val) := by
  have hdt : v.dtype = v.elem := by unfold Var.dtype; rw [hbin]; rfl
  have hf := dtypeFirst_rank v.elem d a b ha hb
  rw [← hdt] at hf
  rcases to_both cast conv v u d copy f1 f2 r h with ⟨h1, w, hw, hr⟩ | ⟨h1, w, hw, hr⟩
  · rw [h1] at hf
    have hle : a ≤ b := by simpa using hf.symm
    obtain ⟨hwe, hwu, _, _, h5⟩ := astype_ok cast v d copy f1 w hw
    obtain ⟨_, _, _, _, h7⟩ := toUnit_ok conv w u false f2 r hr
    rw [hwu, hwe] at h7
    exact ⟨fun _ => ⟨w.val, (h5 hd).1, (h7 hu).1⟩, fun hlt => by omega⟩
  · rw [h1] at hf
    have hle : ¬ a ≤ b := by simpa using hf.symm
    obtain ⟨_, hwe, _, _, h5⟩ := toUnit_ok conv v u copy f1 w hw
    obtain ⟨_, _, _, _, h7⟩ := astype_ok cast w d false f2 r hr
    rw [hwe] at h7
    exact ⟨fun hlt => by omega, fun _ => ⟨w.val, (h5 hu).1, (h7 hd).1⟩⟩

/-- **C132** If only one of both changes, the values are converted once, in the dtype they have; if nothing changes they are those of the input. -/
theorem C132_once {V U : Type} [DecidableEq U] (cast : DT → DT → V → Except Err V) (conv : DT → U → U → V → Except Err V) (v : Var V U) (unit : Option U) (dtype : Option DT) (copy : Bool) (f1 f2 : Nat) (r : Var V U)
    (h : convertTo cast conv v unit dtype copy f1 f2 = .ok r) :
    (unit.getD v.unit = v.unit → dtype.getD v.elem = v.elem → r.val = v.val) ∧
    (∀ u, unit = some u → u ≠ v.unit → dtype.getD v.elem = v.elem → conv v.elem v.unit u v.val = .ok r.val) ∧
    (∀ d, dtype = some d → d ≠ v.elem → unit.getD v.unit = v.unit → cast v.elem d v.val = .ok r.val) := by
  cases unit with
  | none =>
    cases dtype with
    | none => cases h
    | some d =>
      obtain ⟨_, _, _, h4, h5⟩ := astype_ok cast v d copy f1 r h
      exact ⟨fun _ hd => (h4 hd).1, fun u hu => (by cases hu), fun d' hd hn _ => by cases hd; exact (h5 hn).1⟩
  | some u =>
    cases dtype with
    | none =>
      obtain ⟨_, _, _, h4, h5⟩ := toUnit_ok conv v u copy f1 r h
      exact ⟨fun hu _ => (h4 hu).1, fun u' hu hn _ => (by cases hu; exact (h5 hn).1), fun d' hd => (by cases hd)⟩
    | some d =>
      simp only [Option.getD_some]
      rcases to_both cast conv v u d copy f1 f2 r h with ⟨_, w, hw, hr⟩ | ⟨_, w, hw, hr⟩
      · obtain ⟨hwe, hwu, _, h4, h5⟩ := astype_ok cast v d copy f1 w hw
        obtain ⟨_, _, _, h6, h7⟩ := toUnit_ok conv w u false f2 r hr
        rw [hwu] at h6 h7
        rw [hwe] at h7
        refine ⟨fun hu hd => by rw [(h6 hu).1, (h4 hd).1], fun u' hu hn hd => ?_, fun d' hd hn hu => ?_⟩
        · cases hu
          have := (h7 hn).1
          rw [(h4 hd).1, hd] at this
          exact this
        · cases hd
          rw [(h6 hu).1]
          exact (h5 hn).1
      · obtain ⟨hwu, hwe, _, h4, h5⟩ := toUnit_ok conv v u copy f1 w hw
        obtain ⟨_, _, _, h6, h7⟩ := astype_ok cast w d false f2 r hr
        rw [hwe] at h6 h7
        refine ⟨fun hu hd => by rw [(h6 hd).1, (h4 hu).1], fun u' hu hn hd => ?_, fun d' hd hn hu => ?_⟩
        · cases hu
          rw [(h6 hd).1]
          exact (h5 hn).1
        · cases hd
          have := (h7 hn).1
          rw [(h4 hu).1] at this
          exact this

/-- **C132** Without unit and dtype there is nothing to convert: an error. -/
theorem C132_rejects {V U : Type} [DecidableEq U] (cast : DT → DT → V → Except Err V) (conv : DT → U → U → V → Except Err V) (v : Var V U) (copy : Bool) (f1 f2 : Nat) :
    convertTo cast conv v none none copy f1 f2 = .error .invalidArgument := rfl

/-! Cases: numbers are rational, units are scales. -/

/-- Conversion to integers drops the fraction. -/
def c132Cast (_ d : DT) (x : ℚ) : Except Err ℚ := if d = .int32 ∨ d = .int64 then .ok ⌊x⌋ else .ok x

/-- Conversion of units: integers are rounded down, for the example. -/
def c132Conv (d : DT) (u w : ℚ) (x : ℚ) : Except Err ℚ := if d = .int32 ∨ d = .int64 then .ok ⌊x * u / w⌋ else .ok (x * u / w)

example : convertTo c132Cast c132Conv ⟨.int64, false, 1 / 1000, 1500, 7⟩ (some 1) (some .float64) true 8 9 = .ok ⟨.float64, false, 1, 3 / 2, 9⟩ := by decide +kernel

/-- 1.5 m as 1500 mm. -/
theorem c132_float : convertTo c132Cast c132Conv ⟨.float64, false, 1, 3 / 2, 7⟩ (some (1 / 1000)) (some .int64) true 8 9 = .ok ⟨.int64, false, 1 / 1000, 1500, 9⟩ := by decide +kernel

example := C132_widest_partial c132Cast c132Conv ⟨.float64, false, 1, 3 / 2, 7⟩ (1 / 1000) .int64 true 8 9 _ c132_float rfl (by decide +kernel) (by decide) 3 1 rfl rfl

example := C132_copy c132Cast c132Conv ⟨.float64, false, 1, 3 / 2, 7⟩ (some (1 / 1000)) (some .int64) true 8 9 _ c132_float (by decide) (by decide)

example := C132_requested c132Cast c132Conv ⟨.float64, false, 1, 3 / 2, 7⟩ (some (1 / 1000)) (some .int64) true 8 9 _ c132_float

/-- Only the unit changes; nothing is copied before. -/
theorem c132_unit : convertTo c132Cast c132Conv ⟨.float64, true, 1, 3 / 2, 7⟩ (some (1 / 1000)) (some .float64) false 8 9 = .ok ⟨.float64, true, 1 / 1000, 1500, 9⟩ := by decide +kernel

example := (C132_once c132Cast c132Conv ⟨.float64, true, 1, 3 / 2, 7⟩ (some (1 / 1000)) (some .float64) false 8 9 _ c132_unit).2.1 _ rfl (by decide +kernel) rfl

/-- **C132** fails for binned data: the dtype of the elements is not considered, so 1.5 m, in a bin, becomes 1000 mm. -/
theorem C132_wrong_binned : convertTo c132Cast c132Conv ⟨.float64, true, 1, 3 / 2, 7⟩ (some (1 / 1000)) (some .int64) true 8 9 = .ok ⟨.int64, true, 1 / 1000, 1000, 9⟩ := by decide +kernel

end Scipp.Props
