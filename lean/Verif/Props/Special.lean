import Verif.Model.Special
import Verif.Props.Reduce
import Mathlib.Data.List.Perm.Basic
import Mathlib.Tactic.Ring
import Mathlib.Tactic.Linarith
import Mathlib.Tactic.FieldSimp
import Mathlib.Tactic.NormNum

/-!
# C65, C66: infinities and NaN

C65: reductions. Whatever the order in which elements are accumulated and partial results are combined, `sum` is the sum,
`nansum` the sum of what is not NaN, `max` and `min` return an element that is largest or smallest, NaN if there is one,
`nanmax` and `nanmin` a largest or smallest element that is not NaN, `nanmean` the mean of what is not NaN.

C66: `isclose`.
-/

namespace Scipp.Props
open Scipp Special

/-- All ways to reduce elements: one after another, starting from the initial value, in any order, and by combining such
partial results. -/
inductive ReducedTo {V : Type} (op : V → V → V) (init : V) : List V → V → Prop
  | start : ReducedTo op init [] init
  | element {l : List V} {a b : V} : ReducedTo op init l a → ReducedTo op init (l ++ [b]) (op a b)
  | combine {l m : List V} {a b : V} : ReducedTo op init l a → ReducedTo op init m b → ReducedTo op init (l ++ m) (op a b)
  | perm {l m : List V} {a : V} : l.Perm m → ReducedTo op init l a → ReducedTo op init m a

/-- One after another is one of them. -/
theorem reducedTo_foldl {V : Type} (op : V → V → V) (init : V) (l : List V) : ReducedTo op init l (l.foldl op init) := by
  induction l using List.reverseRecOn with
  | nil => exact .start
  | append_singleton l b ih => rw [List.foldl_append]; exact .element ih

/-! ### Order -/

theorem le_trans_ext {a b c : Ext} (h : Ext.le a b = true) (h' : Ext.le b c = true) : Ext.le a c = true := by
  cases a <;> cases b <;> cases c <;> simp_all [Ext.le]
  exact le_trans h h'

theorem le_refl_ext {a : Ext} (h : a.isnan = false) : Ext.le a a = true := by
  cases a <;> simp_all [Ext.le, Ext.isnan]

theorem lt_iff_ext {a b : Ext} (ha : a.isnan = false) (hb : b.isnan = false) : Ext.lt a b = true ↔ Ext.le b a = false := by
  simp [Ext.lt, ha, hb]

theorem le_of_lt_ext {a b : Ext} (h : Ext.lt a b = true) : Ext.le a b = true := by
  cases a <;> cases b <;> simp_all [Ext.le, Ext.lt, Ext.isnan]
  exact le_of_lt h

theorem le_of_not_lt_ext {a b : Ext} (ha : a.isnan = false) (hb : b.isnan = false) (h : Ext.lt a b = false) :
    Ext.le b a = true := by
  simpa [Ext.lt, ha, hb] using h

theorem le_neg_ext {a b : Ext} : Ext.le (Ext.neg a) (Ext.neg b) = Ext.le b a := by
  cases a <;> cases b <;> simp [Ext.le, Ext.neg]

theorem isnan_neg {a : Ext} : (Ext.neg a).isnan = a.isnan := by cases a <;> rfl

/-- What a function choosing one of two elements has to do. -/
structure PicksBest {V : Type} (isnan : V → Bool) (better : V → V → Prop) (pick : V → V → V) : Prop where
  one : ∀ a b, pick a b = a ∨ pick a b = b
  best : ∀ a b, isnan a = false → isnan b = false → better a (pick a b) ∧ better b (pick a b)
  trans : ∀ a b c, better a b → better b c → better a c
  refl : ∀ a, isnan a = false → better a a

theorem picks_notNan {V : Type} {isnan : V → Bool} {better : V → V → Prop} {pick : V → V → V}
    (h : PicksBest isnan better pick) {a b : V} (ha : isnan a = false) (hb : isnan b = false) : isnan (pick a b) = false := by
  rcases h.one a b with e | e <;> rw [e] <;> assumption

/-- `max` and `min` if there is NaN, and if there is not. -/
theorem extremum_spec {V : Type} {isnan : V → Bool} {better : V → V → Prop} {pick : V → V → V}
    (hp : PicksBest isnan better pick) {init : V} (hi : isnan init = false) {l : List V} {r : V}
    (h : ReducedTo (extremum isnan pick) init l r) :
    ((∃ x ∈ l, isnan x = true) → r ∈ l ∧ isnan r = true) ∧
    ((∀ x ∈ l, isnan x = false) → isnan r = false ∧ (r = init ∨ r ∈ l) ∧ better init r ∧ ∀ x ∈ l, better x r) := by
  induction h with
  | start => exact ⟨by simp, fun _ => ⟨hi, .inl rfl, hp.refl _ hi, by simp⟩⟩
  | @element l a b _ ih =>
    constructor
    · intro hx
      cases hb : isnan b with
      | true => simp [extremum, hb]
      | false =>
        have hl : ∃ x ∈ l, isnan x = true := by
          obtain ⟨x, hx, hn⟩ := hx
          rcases List.mem_append.1 hx with hx | hx
          · exact ⟨x, hx, hn⟩
          · rw [List.mem_singleton.1 hx, hb] at hn; simp at hn
        obtain ⟨h1, h2⟩ := ih.1 hl
        simp [extremum, hb, h2, h1]
    · intro hx
      have hb : isnan b = false := hx b (by simp)
      obtain ⟨h1, h2, h3, h4⟩ := ih.2 (fun x hx' => hx x (by simp [hx']))
      have e : extremum isnan pick a b = pick a b := by simp [extremum, hb, h1]
      obtain ⟨g1, g2⟩ := hp.best a b h1 hb
      rw [e]
      refine ⟨picks_notNan hp h1 hb, ?_, hp.trans _ _ _ h3 g1, ?_⟩
      · rcases hp.one a b with e | e <;> rw [e]
        · rcases h2 with h2 | h2
          · exact .inl h2
          · exact .inr (by simp [h2])
        · exact .inr (by simp)
      · intro x hx'
        rcases List.mem_append.1 hx' with hx' | hx'
        · exact hp.trans _ _ _ (h4 x hx') g1
        · rw [List.mem_singleton.1 hx']; exact g2
  | @combine l m a b _ _ ih1 ih2 =>
    constructor
    · intro hx
      by_cases hm : ∃ x ∈ m, isnan x = true
      · obtain ⟨h1, h2⟩ := ih2.1 hm
        simp [extremum, h2, h1]
      · have hm' : ∀ x ∈ m, isnan x = false := by
          intro x hx'
          cases hh : isnan x with
          | false => rfl
          | true => exact absurd ⟨x, hx', hh⟩ hm
        have hl : ∃ x ∈ l, isnan x = true := by
          obtain ⟨x, hx, hn⟩ := hx
          rcases List.mem_append.1 hx with hx | hx
          · exact ⟨x, hx, hn⟩
          · exact absurd ⟨x, hx, hn⟩ hm
        obtain ⟨h1, h2⟩ := ih1.1 hl
        have hb := (ih2.2 hm').1
        simp [extremum, hb, h2, h1]
    · intro hx
      obtain ⟨h1, h2, h3, h4⟩ := ih1.2 (fun x hx' => hx x (by simp [hx']))
      obtain ⟨k1, k2, k3, k4⟩ := ih2.2 (fun x hx' => hx x (by simp [hx']))
      have e : extremum isnan pick a b = pick a b := by simp [extremum, k1, h1]
      obtain ⟨g1, g2⟩ := hp.best a b h1 k1
      rw [e]
      refine ⟨picks_notNan hp h1 k1, ?_, hp.trans _ _ _ h3 g1, ?_⟩
      · rcases hp.one a b with e | e <;> rw [e]
        · rcases h2 with h2 | h2
          · exact .inl h2
          · exact .inr (by simp [h2])
        · rcases k2 with k2 | k2
          · exact .inl k2
          · exact .inr (by simp [k2])
      · intro x hx'
        rcases List.mem_append.1 hx' with hx' | hx'
        · exact hp.trans _ _ _ (h4 x hx') g1
        · exact hp.trans _ _ _ (k4 x hx') g2
  | perm hlm _ ih =>
    simp only [hlm.mem_iff] at ih
    exact ih

theorem nanExtremum_spec {V : Type} {isnan : V → Bool} {better : V → V → Prop} {pick : V → V → V}
    (hp : PicksBest isnan better pick) {init : V} (hi : isnan init = false) {l : List V} {r : V}
    (h : ReducedTo (nanExtremum isnan pick) init l r) :
    isnan r = false ∧ (r = init ∨ r ∈ l) ∧ better init r ∧ ∀ x ∈ l, isnan x = false → better x r := by
  induction h with
  | start => exact ⟨hi, .inl rfl, hp.refl _ hi, by simp⟩
  | @element l a b _ ih =>
    obtain ⟨h1, h2, h3, h4⟩ := ih
    cases hb : isnan b with
    | true =>
      simp only [nanExtremum, orElse, hb, h1, Bool.not_true, Bool.false_eq_true, if_false]
      refine ⟨by simp, ?_, h3, ?_⟩
      · rcases h2 with h2 | h2
        · exact .inl h2
        · exact .inr (by simp [h2])
      · intro x hx hn
        rcases List.mem_append.1 hx with hx | hx
        · exact h4 x hx hn
        · rw [List.mem_singleton.1 hx, hb] at hn; simp at hn
    | false =>
      simp only [nanExtremum, orElse, hb, h1, Bool.not_false, Bool.false_eq_true, if_false, if_true]
      obtain ⟨g1, g2⟩ := hp.best a b h1 hb
      refine ⟨picks_notNan hp h1 hb, ?_, hp.trans _ _ _ h3 g1, ?_⟩
      · rcases hp.one a b with e | e <;> rw [e]
        · rcases h2 with h2 | h2
          · exact .inl h2
          · exact .inr (by simp [h2])
        · exact .inr (by simp)
      · intro x hx' hn
        rcases List.mem_append.1 hx' with hx' | hx'
        · exact hp.trans _ _ _ (h4 x hx' hn) g1
        · rw [List.mem_singleton.1 hx']; exact g2
  | @combine l m a b _ _ ih1 ih2 =>
    obtain ⟨h1, h2, h3, h4⟩ := ih1
    obtain ⟨k1, k2, k3, k4⟩ := ih2
    simp only [nanExtremum, orElse, k1, h1, Bool.not_false, Bool.false_eq_true, if_false, if_true]
    obtain ⟨g1, g2⟩ := hp.best a b h1 k1
    refine ⟨picks_notNan hp h1 k1, ?_, hp.trans _ _ _ h3 g1, ?_⟩
    · rcases hp.one a b with e | e <;> rw [e]
      · rcases h2 with h2 | h2
        · exact .inl h2
        · exact .inr (by simp [h2])
      · rcases k2 with k2 | k2
        · exact .inl k2
        · exact .inr (by simp [k2])
    · intro x hx' hn
      rcases List.mem_append.1 hx' with hx' | hx'
      · exact hp.trans _ _ _ (h4 x hx' hn) g1
      · exact hp.trans _ _ _ (k4 x hx' hn) g2
  | perm hlm _ ih =>
    simp only [hlm.mem_iff] at ih
    exact ih

theorem picks_stdMax : PicksBest Ext.isnan (fun a b => Ext.le a b = true) stdMax where
  one a b := by unfold stdMax; split <;> simp
  best a b ha hb := by
    unfold stdMax
    split
    · rename_i h; exact ⟨le_of_lt_ext h, le_refl_ext hb⟩
    · rename_i h; exact ⟨le_refl_ext ha, le_of_not_lt_ext ha hb (by simpa using h)⟩
  trans _ _ _ h h' := le_trans_ext h h'
  refl _ h := le_refl_ext h

theorem picks_stdMin : PicksBest Ext.isnan (fun a b => Ext.le b a = true) stdMin where
  one a b := by unfold stdMin; split <;> simp
  best a b ha hb := by
    unfold stdMin
    split
    · rename_i h; exact ⟨le_of_lt_ext h, le_refl_ext hb⟩
    · rename_i h; exact ⟨le_refl_ext ha, le_of_not_lt_ext hb ha (by simpa using h)⟩
  trans _ _ _ h h' := le_trans_ext h' h
  refl _ h := le_refl_ext h

theorem picks_vvMax : PicksBest ExtVV.isnan (fun a b => Ext.le a.value b.value = true) vvMax where
  one a b := by unfold vvMax; split <;> simp
  best a b ha hb := by
    unfold vvMax
    split
    · rename_i h; exact ⟨le_refl_ext ha, le_of_lt_ext h⟩
    · rename_i h; exact ⟨le_of_not_lt_ext hb ha (by simpa using h), le_refl_ext hb⟩
  trans _ _ _ h h' := le_trans_ext h h'
  refl _ h := le_refl_ext h

theorem picks_vvMin : PicksBest ExtVV.isnan (fun a b => Ext.le b.value a.value = true) vvMin where
  one a b := by unfold vvMin; split <;> simp
  best a b ha hb := by
    unfold vvMin
    split
    · rename_i h; exact ⟨le_refl_ext ha, le_of_lt_ext h⟩
    · rename_i h; exact ⟨le_of_not_lt_ext ha hb (by simpa using h), le_refl_ext hb⟩
  trans _ _ _ h h' := le_trans_ext h' h
  refl _ h := le_refl_ext h

/-! ### C65 -/

/-- **C65** (`max`, partial: some element is at least the smallest finite number): the result is NaN if an element is, otherwise
it is an element, and no element is larger. For values without and with variances; in the latter case the result is an
element together with its variance. Missing: if all elements are negative infinity, see `C65_wrong_for_infinity`. -/
theorem C65_max_partial (big : ℚ) :
    (∀ (l : List Ext) (r : Ext), ReducedTo maxEquals (lowest big) l r →
      (Ext.nan ∈ l → r = Ext.nan) ∧
      (Ext.nan ∉ l → (∃ x ∈ l, Ext.lt (lowest big) x = true) → r ∈ l ∧ ∀ x ∈ l, Ext.le x r = true)) ∧
    (∀ (l : List ExtVV) (r : ExtVV), ReducedTo vvMaxEquals ⟨lowest big, .fin 0⟩ l r →
      ((∃ x ∈ l, x.value = Ext.nan) → r ∈ l ∧ r.value = Ext.nan) ∧
      ((∀ x ∈ l, x.value ≠ Ext.nan) → (∃ x ∈ l, Ext.lt (lowest big) x.value = true) →
        r ∈ l ∧ ∀ x ∈ l, Ext.le x.value r.value = true)) := by
  have hn : ∀ x : Ext, x.isnan = true ↔ x = Ext.nan := by intro x; cases x <;> simp [Ext.isnan]
  have hn' : ∀ x : Ext, x.isnan = false ↔ x ≠ Ext.nan := by intro x; cases x <;> simp [Ext.isnan]
  constructor
  · intro l r h
    obtain ⟨h1, h2⟩ := extremum_spec picks_stdMax (init := lowest big) rfl h
    refine ⟨fun hm => (hn r).1 (h1 ⟨_, hm, rfl⟩).2, fun hm ⟨y, hy, hlt⟩ => ?_⟩
    obtain ⟨g1, g2, g3, g4⟩ := h2 (fun x hx => (hn' x).2 (fun e => hm (e ▸ hx)))
    refine ⟨?_, g4⟩
    rcases g2 with rfl | g2
    · exfalso
      have := g4 y hy
      simp only [Ext.lt, this] at hlt
      simp at hlt
    · exact g2
  · intro l r h
    obtain ⟨h1, h2⟩ := extremum_spec picks_vvMax (init := ⟨lowest big, .fin 0⟩) rfl h
    refine ⟨fun ⟨x, hx, e⟩ => ?_, fun hm ⟨y, hy, hlt⟩ => ?_⟩
    · obtain ⟨k1, k2⟩ := h1 ⟨x, hx, by simp [ExtVV.isnan, e, Ext.isnan]⟩
      exact ⟨k1, (hn _).1 k2⟩
    · obtain ⟨g1, g2, g3, g4⟩ := h2 (fun x hx => (hn' _).2 (hm x hx))
      refine ⟨?_, g4⟩
      rcases g2 with rfl | g2
      · exfalso
        have := g4 y hy
        simp only [Ext.lt, this] at hlt
        simp at hlt
      · exact g2

/-- **C65** (`min`, partial like `max`). -/
theorem C65_min_partial (big : ℚ) :
    (∀ (l : List Ext) (r : Ext), ReducedTo minEquals (highest big) l r →
      (Ext.nan ∈ l → r = Ext.nan) ∧
      (Ext.nan ∉ l → (∃ x ∈ l, Ext.lt x (highest big) = true) → r ∈ l ∧ ∀ x ∈ l, Ext.le r x = true)) ∧
    (∀ (l : List ExtVV) (r : ExtVV), ReducedTo vvMinEquals ⟨highest big, .fin 0⟩ l r →
      ((∃ x ∈ l, x.value = Ext.nan) → r ∈ l ∧ r.value = Ext.nan) ∧
      ((∀ x ∈ l, x.value ≠ Ext.nan) → (∃ x ∈ l, Ext.lt x.value (highest big) = true) →
        r ∈ l ∧ ∀ x ∈ l, Ext.le r.value x.value = true)) := by
  have hn : ∀ x : Ext, x.isnan = true ↔ x = Ext.nan := by intro x; cases x <;> simp [Ext.isnan]
  have hn' : ∀ x : Ext, x.isnan = false ↔ x ≠ Ext.nan := by intro x; cases x <;> simp [Ext.isnan]
  constructor
  · intro l r h
    obtain ⟨h1, h2⟩ := extremum_spec picks_stdMin (init := highest big) rfl h
    refine ⟨fun hm => (hn r).1 (h1 ⟨_, hm, rfl⟩).2, fun hm ⟨y, hy, hlt⟩ => ?_⟩
    obtain ⟨g1, g2, g3, g4⟩ := h2 (fun x hx => (hn' x).2 (fun e => hm (e ▸ hx)))
    refine ⟨?_, g4⟩
    rcases g2 with rfl | g2
    · exfalso
      have := g4 y hy
      simp only [Ext.lt, this] at hlt
      simp at hlt
    · exact g2
  · intro l r h
    obtain ⟨h1, h2⟩ := extremum_spec picks_vvMin (init := ⟨highest big, .fin 0⟩) rfl h
    refine ⟨fun ⟨x, hx, e⟩ => ?_, fun hm ⟨y, hy, hlt⟩ => ?_⟩
    · obtain ⟨k1, k2⟩ := h1 ⟨x, hx, by simp [ExtVV.isnan, e, Ext.isnan]⟩
      exact ⟨k1, (hn _).1 k2⟩
    · obtain ⟨g1, g2, g3, g4⟩ := h2 (fun x hx => (hn' _).2 (hm x hx))
      refine ⟨?_, g4⟩
      rcases g2 with rfl | g2
      · exfalso
        have := g4 y hy
        simp only [Ext.lt, this] at hlt
        simp at hlt
      · exact g2

/-- **C65** (`nanmax` and `nanmin`, partial: some element is between the smallest and largest finite number): the result is an
element that is not NaN, and no such element is larger, or smaller. -/
theorem C65_nanmax_partial (big : ℚ) :
    (∀ (l : List Ext) (r : Ext), ReducedTo nanmaxEquals (lowest big) l r → (∃ x ∈ l, Ext.lt (lowest big) x = true) →
      r ∈ l ∧ r ≠ Ext.nan ∧ ∀ x ∈ l, x ≠ Ext.nan → Ext.le x r = true) ∧
    (∀ (l : List Ext) (r : Ext), ReducedTo nanminEquals (highest big) l r → (∃ x ∈ l, Ext.lt x (highest big) = true) →
      r ∈ l ∧ r ≠ Ext.nan ∧ ∀ x ∈ l, x ≠ Ext.nan → Ext.le r x = true) ∧
    (∀ (l : List ExtVV) (r : ExtVV), ReducedTo vvNanmaxEquals ⟨lowest big, .fin 0⟩ l r →
      (∃ x ∈ l, Ext.lt (lowest big) x.value = true) →
      r ∈ l ∧ r.value ≠ Ext.nan ∧ ∀ x ∈ l, x.value ≠ Ext.nan → Ext.le x.value r.value = true) ∧
    (∀ (l : List ExtVV) (r : ExtVV), ReducedTo vvNanminEquals ⟨highest big, .fin 0⟩ l r →
      (∃ x ∈ l, Ext.lt x.value (highest big) = true) →
      r ∈ l ∧ r.value ≠ Ext.nan ∧ ∀ x ∈ l, x.value ≠ Ext.nan → Ext.le r.value x.value = true) := by
  have hn' : ∀ x : Ext, x.isnan = false ↔ x ≠ Ext.nan := by intro x; cases x <;> simp [Ext.isnan]
  have hlt' : ∀ a b : Ext, Ext.lt a b = true → a.isnan = false ∧ b.isnan = false ∧ Ext.le b a = false := by
    intro a b h; simpa [Ext.lt, and_assoc] using h
  refine ⟨?_, ?_, ?_, ?_⟩
  · rintro l r h ⟨y, hy, hlt⟩
    obtain ⟨g1, g2, g3, g4⟩ := nanExtremum_spec picks_stdMax (init := lowest big) rfl h
    obtain ⟨_, e2, e3⟩ := hlt' _ _ hlt
    refine ⟨?_, (hn' _).1 g1, fun x hx hxn => g4 x hx ((hn' _).2 hxn)⟩
    rcases g2 with rfl | g2
    · have := g4 y hy e2; rw [e3] at this; simp at this
    · exact g2
  · rintro l r h ⟨y, hy, hlt⟩
    obtain ⟨g1, g2, g3, g4⟩ := nanExtremum_spec picks_stdMin (init := highest big) rfl h
    obtain ⟨e2, _, e3⟩ := hlt' _ _ hlt
    refine ⟨?_, (hn' _).1 g1, fun x hx hxn => g4 x hx ((hn' _).2 hxn)⟩
    rcases g2 with rfl | g2
    · have := g4 y hy e2; rw [e3] at this; simp at this
    · exact g2
  · rintro l r h ⟨y, hy, hlt⟩
    obtain ⟨g1, g2, g3, g4⟩ := nanExtremum_spec picks_vvMax (init := ⟨lowest big, .fin 0⟩) rfl h
    obtain ⟨_, e2, e3⟩ := hlt' _ _ hlt
    refine ⟨?_, (hn' _).1 g1, fun x hx hxn => g4 x hx ((hn' _).2 hxn)⟩
    rcases g2 with rfl | g2
    · have := g4 y hy e2; rw [e3] at this; simp at this
    · exact g2
  · rintro l r h ⟨y, hy, hlt⟩
    obtain ⟨g1, g2, g3, g4⟩ := nanExtremum_spec picks_vvMin (init := ⟨highest big, .fin 0⟩) rfl h
    obtain ⟨e2, _, e3⟩ := hlt' _ _ hlt
    refine ⟨?_, (hn' _).1 g1, fun x hx hxn => g4 x hx ((hn' _).2 hxn)⟩
    rcases g2 with rfl | g2
    · have := g4 y hy e2; rw [e3] at this; simp at this
    · exact g2

/-- **C65** (infinities) is false: the maximum of negative infinities is the lowest finite number, the minimum of positive
infinities the largest, and `nanmax` of nothing but NaN is a number, in whatever way they are reduced. -/
theorem C65_wrong_for_infinity (big : ℚ) (n : Nat) (r : Ext) :
    (ReducedTo maxEquals (lowest big) (List.replicate n .ninf) r → r = .fin (-big)) ∧
    (ReducedTo minEquals (highest big) (List.replicate n .pinf) r → r = .fin big) ∧
    (ReducedTo nanmaxEquals (lowest big) (List.replicate n .nan) r → r = .fin (-big)) := by
  refine ⟨fun h => ?_, fun h => ?_, fun h => ?_⟩
  · obtain ⟨g1, g2, g3, g4⟩ := (extremum_spec picks_stdMax (init := lowest big) rfl h).2
      (fun x hx => by rw [List.eq_of_mem_replicate hx]; rfl)
    rcases g2 with e | e
    · exact e
    · rw [List.eq_of_mem_replicate e] at g3; simp [lowest, Ext.le] at g3
  · obtain ⟨g1, g2, g3, g4⟩ := (extremum_spec picks_stdMin (init := highest big) rfl h).2
      (fun x hx => by rw [List.eq_of_mem_replicate hx]; rfl)
    rcases g2 with e | e
    · exact e
    · rw [List.eq_of_mem_replicate e] at g3; simp [highest, Ext.le] at g3
  · obtain ⟨g1, g2, g3, g4⟩ := nanExtremum_spec picks_stdMax (init := lowest big) rfl h
    rcases g2 with e | e
    · exact e
    · rw [List.eq_of_mem_replicate e] at g1; simp [Ext.isnan] at g1

/-! ### sums -/

/-- The finite part. -/
def finitePart : Ext → ℚ
  | .fin q => q
  | _ => 0

/-- Sum of the elements that are not NaN, which do not contain infinities of both signs. -/
def totalOf (l : List Ext) : Ext :=
  if Ext.pinf ∈ l then .pinf else if Ext.ninf ∈ l then .ninf else .fin (l.map finitePart).sum

theorem totalOf_append {l m : List Ext} (h : ¬ (Ext.pinf ∈ l ++ m ∧ Ext.ninf ∈ l ++ m)) :
    Ext.add (totalOf l) (totalOf m) = totalOf (l ++ m) := by
  simp only [List.mem_append, not_and_or, not_or] at h
  unfold totalOf
  simp only [List.mem_append, List.map_append, List.sum_append]
  by_cases a1 : Ext.pinf ∈ l <;> by_cases a2 : Ext.pinf ∈ m <;> by_cases a3 : Ext.ninf ∈ l <;>
    by_cases a4 : Ext.ninf ∈ m <;> simp_all [Ext.add]

theorem totalOf_notNan (l : List Ext) : (totalOf l).isnan = false := by
  unfold totalOf; split
  · rfl
  · split <;> rfl

theorem totalOf_perm {l m : List Ext} (h : l.Perm m) : totalOf l = totalOf m := by
  unfold totalOf
  simp only [h.mem_iff, (h.map finitePart).sum_eq]

theorem nanAdd_total {a b : Ext} (ha : a.isnan = false) (hb : b.isnan = false) : nanAddEquals a b = Ext.add a b := by
  simp [nanAddEquals, forceZero, ha, hb]

theorem totalOf_single {b : Ext} (hb : b.isnan = false) : totalOf [b] = b := by
  cases b <;> simp_all [totalOf, finitePart, Ext.isnan]

/-- **C65** (`nansum`, partial: not infinities of both signs): the sum of what is not NaN, whatever the order. Missing:
infinities of both signs, see `C65_wrong_for_nansum`, and scalars, see `C65_wrong_for_scalar`. -/
theorem C65_nansum_partial (l : List Ext) (r : Ext) (hl : ¬ (Ext.pinf ∈ l ∧ Ext.ninf ∈ l))
    (h : ReducedTo nanAddEquals (.fin 0) l r) : r = totalOf l := by
  induction h with
  | start => simp [totalOf]
  | @element l a b _ ih =>
    have hl' : ¬ (Ext.pinf ∈ l ∧ Ext.ninf ∈ l) := fun hh => hl ⟨by simp [hh.1], by simp [hh.2]⟩
    have e := ih hl'
    subst e
    cases hb : b.isnan with
    | true =>
      have e : b = .nan := by cases b <;> simp_all [Ext.isnan]
      subst e
      have e2 : totalOf (l ++ [Ext.nan]) = totalOf l := by
        unfold totalOf
        simp [finitePart]
      rw [e2]
      simp [nanAddEquals, forceZero, totalOf_notNan, hb]
    | false =>
      rw [nanAdd_total (totalOf_notNan l) hb, ← totalOf_append hl, totalOf_single hb]
  | @combine l m a b _ _ ih1 ih2 =>
    have e1 := ih1 (fun hh => hl ⟨by simp [hh.1], by simp [hh.2]⟩)
    have e2 := ih2 (fun hh => hl ⟨by simp [hh.1], by simp [hh.2]⟩)
    subst e1; subst e2
    rw [nanAdd_total (totalOf_notNan _) (totalOf_notNan _), totalOf_append hl]
  | perm hlm _ ih =>
    rw [← totalOf_perm hlm]
    exact ih (fun hh => hl ⟨hlm.mem_iff.1 hh.1, hlm.mem_iff.1 hh.2⟩)

/-- **C65** (`sum`): NaN if an element is NaN or if there are infinities of both signs, otherwise the sum, whatever the
order. -/
theorem C65_sum (l : List Ext) (r : Ext) (h : ReducedTo addEquals (.fin 0) l r) :
    (Ext.nan ∈ l ∨ (Ext.pinf ∈ l ∧ Ext.ninf ∈ l) → r = .nan) ∧
    (Ext.nan ∉ l → ¬ (Ext.pinf ∈ l ∧ Ext.ninf ∈ l) → r = totalOf l) := by
  have key : ∀ {l : List Ext} {r : Ext}, ReducedTo addEquals (.fin 0) l r →
      r = if Ext.nan ∈ l ∨ (Ext.pinf ∈ l ∧ Ext.ninf ∈ l) then .nan else totalOf l := by
    intro l r h
    have comb : ∀ (l m : List Ext), Ext.add (if Ext.nan ∈ l ∨ (Ext.pinf ∈ l ∧ Ext.ninf ∈ l) then .nan else totalOf l)
        (if Ext.nan ∈ m ∨ (Ext.pinf ∈ m ∧ Ext.ninf ∈ m) then .nan else totalOf m) =
        if Ext.nan ∈ l ++ m ∨ (Ext.pinf ∈ l ++ m ∧ Ext.ninf ∈ l ++ m) then .nan else totalOf (l ++ m) := by
      intro l m
      by_cases c1 : Ext.nan ∈ l ∨ (Ext.pinf ∈ l ∧ Ext.ninf ∈ l)
      · have c3 : Ext.nan ∈ l ++ m ∨ (Ext.pinf ∈ l ++ m ∧ Ext.ninf ∈ l ++ m) := by
          rcases c1 with c | ⟨c, c'⟩
          · exact .inl (by simp [c])
          · exact .inr ⟨by simp [c], by simp [c']⟩
        rw [if_pos c1, if_pos c3]; rfl
      · by_cases c2 : Ext.nan ∈ m ∨ (Ext.pinf ∈ m ∧ Ext.ninf ∈ m)
        · have c3 : Ext.nan ∈ l ++ m ∨ (Ext.pinf ∈ l ++ m ∧ Ext.ninf ∈ l ++ m) := by
            rcases c2 with c | ⟨c, c'⟩
            · exact .inl (by simp [c])
            · exact .inr ⟨by simp [c], by simp [c']⟩
          rw [if_pos c2, if_pos c3, if_neg c1]
          cases totalOf l <;> rfl
        · rw [if_neg c1, if_neg c2]
          by_cases c3 : Ext.pinf ∈ l ++ m ∧ Ext.ninf ∈ l ++ m
          · rw [if_pos (.inr c3)]
            simp only [not_or, not_and] at c1 c2
            simp only [List.mem_append] at c3
            unfold totalOf
            by_cases a1 : Ext.pinf ∈ l <;> by_cases a2 : Ext.pinf ∈ m <;> by_cases a3 : Ext.ninf ∈ l <;>
              by_cases a4 : Ext.ninf ∈ m <;> simp_all [Ext.add]
          · rw [totalOf_append c3, if_neg]
            simp only [not_or] at c1 c2 ⊢
            exact ⟨by simp [c1.1, c2.1], c3⟩
    induction h with
    | start => simp [totalOf]
    | @element l a b _ ih =>
      rw [ih, ← comb l [b]]
      have : (if Ext.nan ∈ [b] ∨ (Ext.pinf ∈ [b] ∧ Ext.ninf ∈ [b]) then .nan else totalOf [b]) = b := by
        cases b <;> simp [totalOf, finitePart]
      rw [this]; rfl
    | @combine l m a b _ _ ih1 ih2 => rw [ih1, ih2, ← comb l m]; rfl
    | perm hlm _ ih => rw [ih]; simp only [hlm.mem_iff, totalOf_perm hlm]
  have e := key h
  constructor
  · intro hc; rw [e, if_pos hc]
  · intro h1 h2; rw [e, if_neg (not_or.2 ⟨h1, h2⟩)]

/-- **C65** (`nanmean`, partial: not infinities of both signs): the sum of elements that are not NaN divided by their number;
NaN if there are none; infinite if there are infinities, although these are not counted. -/
theorem C65_nanmean_partial (l : List Ext) (s : Ext) (hl : ¬ (Ext.pinf ∈ l ∧ Ext.ninf ∈ l))
    (h : ReducedTo nanAddEquals (.fin 0) l s) :
    (Ext.pinf ∉ l → Ext.ninf ∉ l → (l.countP (fun x => !x.isnan)) ≠ 0 →
      normalize s (countFinite l) = .fin ((l.map finitePart).sum / (l.countP (fun x => !x.isnan) : ℚ))) ∧
    ((∀ x ∈ l, x = Ext.nan) → normalize s (countFinite l) = .nan) ∧
    (Ext.pinf ∈ l → normalize s (countFinite l) = .pinf) ∧ (Ext.ninf ∈ l → normalize s (countFinite l) = .ninf) := by
  have e := C65_nansum_partial l s hl h
  have hcount : Ext.pinf ∉ l → Ext.ninf ∉ l → countFinite l = l.countP (fun x => !x.isnan) := by
    intro h1 h2
    apply List.countP_congr
    intro x hx
    cases x with
    | nan => simp [Ext.isfinite, Ext.isnan]
    | fin q => simp [Ext.isfinite, Ext.isnan]
    | pinf => exact absurd hx h1
    | ninf => exact absurd hx h2
  have hrec : ∀ n : Nat, Ext.mul .pinf (Ext.reciprocalOfCount n) = .pinf ∧
      (0 < n → Ext.mul .ninf (Ext.reciprocalOfCount n) = .ninf) ∧ (n = 0 → Ext.mul .ninf (Ext.reciprocalOfCount n) = .ninf) := by
    intro n
    unfold Ext.reciprocalOfCount
    rcases Nat.eq_zero_or_pos n with rfl | hn
    · simp [Ext.mul]
    · have hq : (0 : ℚ) < 1 / (n : ℚ) := by positivity
      have hn0 : n ≠ 0 := by omega
      have hq0 : (1 / (n : ℚ)) ≠ 0 := ne_of_gt hq
      have hneg : ¬ (0 < -(1 / (n : ℚ))) := by linarith
      have hneg0 : -(1 / (n : ℚ)) ≠ 0 := by simpa using hq0
      simp only [if_neg hn0, Ext.mul, Ext.infOfSign, if_neg hq0, if_pos hq, if_neg hneg, if_neg hneg0]
      exact ⟨trivial, fun _ => trivial, fun h => absurd h hn0⟩
  refine ⟨?_, ?_, ?_, ?_⟩
  · intro h1 h2 h3
    rw [e, hcount h1 h2]
    simp only [totalOf, h1, h2, if_false, normalize, Ext.reciprocalOfCount, h3, Ext.mul]
    congr 1
    ring
  · intro hall
    have h1 : Ext.pinf ∉ l := fun hm => by simpa using hall _ hm
    have h2 : Ext.ninf ∉ l := fun hm => by simpa using hall _ hm
    have h0 : countFinite l = 0 := by
      unfold countFinite
      rw [List.countP_eq_zero]
      intro x hx; rw [hall x hx]; simp [Ext.isfinite]
    have hsum : (l.map finitePart).sum = 0 := by
      apply List.sum_eq_zero
      intro q hq
      obtain ⟨x, hx, rfl⟩ := List.mem_map.1 hq
      rw [hall x hx]; rfl
    rw [e, h0]
    simp [totalOf, h1, h2, hsum, normalize, Ext.reciprocalOfCount, Ext.mul, Ext.infOfSign]
  · intro hp
    rw [e]
    simp only [totalOf, hp, if_true, normalize]
    exact (hrec _).1
  · intro hp
    have h1 : Ext.pinf ∉ l := fun hm => hl ⟨hm, hp⟩
    rw [e]
    simp only [totalOf, h1, hp, if_true, if_false, normalize]
    rcases Nat.eq_zero_or_pos (countFinite l) with h0 | h0
    · exact (hrec _).2.2 h0
    · exact (hrec _).2.1 h0

/-- **C65** (`nansum` with infinities of both signs) is false: a partial sum that is NaN is taken for an element and
discarded, so that the result depends on the order. -/
theorem C65_wrong_for_nansum :
    ReducedTo nanAddEquals (.fin 0) [.pinf, .ninf, .fin 5] (.fin 5) ∧
    ReducedTo nanAddEquals (.fin 0) [.pinf, .ninf, .fin 5] .nan := by
  constructor
  · have h := reducedTo_foldl nanAddEquals (.fin 0) [.pinf, .ninf, .fin 5]
    have e : [Ext.pinf, .ninf, .fin 5].foldl nanAddEquals (.fin 0) = .fin 5 := by decide +kernel
    rwa [e] at h
  · have h := reducedTo_foldl nanAddEquals (.fin 0) [.fin 5, .pinf, .ninf]
    have e : [Ext.fin 5, .pinf, .ninf].foldl nanAddEquals (.fin 0) = .nan := by decide +kernel
    rw [e] at h
    exact .perm (by decide +kernel) h

/-- **C65** (along a dim): reducing a variable along a dim reduces, for every position in the other dims, the elements along
the dim. Together with the theorems above. -/
theorem C65_along_partial {V : Type} (op : V → V → V) (init : V) (x : Operand V) (f : Int → V) (pre post : Dims) (dim : Dim)
    (n : Int) (hg : GoodOperand x) (hf : x.buf = some f) (hd : x.view.dims = pre ++ (dim, n) :: post)
    (hz : ¬ ReducesBroadcast x.view dim) (dims : Dims) (mem : Int → V) (h : reduceDimView op init x dim (.ok (dims, mem)))
    (c : Dim → Int) (hc : InDims dims c) :
    ReducedTo op init ((intRange 0 n).map fun j => f (x.view.addr (upd c dim j))) (mem (position dims c)) := by
  obtain ⟨_, h2, _⟩ := C57_reduce_partial op init x f pre post dim n hg hf hd hz dims mem h
  rw [h2 c hc]
  have := reducedTo_foldl op init ((intRange 0 n).map fun j => f (x.view.addr (upd c dim j)))
  rwa [List.foldl_map] at this

/-- **C65** (scalars) is false for `nansum`: the sum over all dims of a scalar is the scalar itself, also if it is NaN. -/
theorem C65_wrong_for_scalar :
    ReduceAllDims nanAddEquals (.fin 0) ⟨⟨[], [], 0, false⟩, some fun _ => .nan⟩ (.ok .nan) ∧ totalOf [.nan] = .fin 0 :=
  ⟨ReduceAllDims.scalar (op := nanAddEquals) (init := Ext.fin 0) (x := ⟨⟨[], [], 0, false⟩, some fun _ => Ext.nan⟩)
    (mem := fun _ => Ext.nan) rfl rfl, by simp [totalOf, finitePart]⟩

/-! ### Examples -/

example : ReducedTo maxEquals (lowest 1000) [.fin 3, .ninf, .fin 7] (.fin 7) := by
  have h := ReducedTo.combine (reducedTo_foldl maxEquals (lowest 1000) [.fin 3]) (reducedTo_foldl maxEquals (lowest 1000) [.ninf, .fin 7])
  have e : maxEquals ([Ext.fin 3].foldl maxEquals (lowest 1000)) ([Ext.ninf, .fin 7].foldl maxEquals (lowest 1000)) = .fin 7 := by
    decide +kernel
  rwa [e] at h
example : Ext.nan ∉ [Ext.fin 3, .ninf, .fin 7] ∧ ∃ x ∈ [Ext.fin 3, .ninf, .fin 7], Ext.lt (lowest 1000) x = true := by
  decide +kernel
example : [(⟨.fin 3, .fin 1⟩ : ExtVV), ⟨.nan, .fin 2⟩, ⟨.fin 5, .fin 3⟩].foldl vvMaxEquals ⟨lowest 1000, .fin 0⟩ = ⟨.nan, .fin 2⟩ ∧
    [(⟨.fin 3, .fin 1⟩ : ExtVV), ⟨.nan, .fin 2⟩, ⟨.fin 5, .fin 3⟩].foldl vvNanmaxEquals ⟨lowest 1000, .fin 0⟩ = ⟨.fin 5, .fin 3⟩ ∧
    [(⟨.fin 3, .fin 1⟩ : ExtVV), ⟨.nan, .fin 2⟩, ⟨.fin 5, .fin 3⟩].foldl vvNanminEquals ⟨highest 1000, .fin 0⟩ = ⟨.fin 3, .fin 1⟩ := by
  decide +kernel
example : [Ext.fin 3, .nan, .ninf, .fin 2].foldl nanAddEquals (.fin 0) = .ninf ∧ totalOf [.fin 3, .nan, .fin 2] = .fin 5 ∧
    [Ext.fin 3, .nan, .fin 2].foldl nanAddEquals (.fin 0) = .fin 5 ∧ normalize (.fin 5) (countFinite [.fin 3, .nan, .fin 2]) = .fin (5 / 2) := by
  decide +kernel
example : [Ext.fin 3, .pinf, .ninf, .fin 2].foldl addEquals (.fin 0) = .nan := by decide +kernel

/-! ### C66 -/

/-- **C66** (finite numbers): finite numbers are close if and only if their difference is at most the tolerance relative to the second, with
or without the flag for NaN. -/
theorem C66_finite (equalNan : Bool) (r a x y : ℚ) :
    iscloseValue equalNan (.fin r) (.fin a) (.fin x) (.fin y) = true ↔ |x - y| ≤ a + r * |y| := by
  cases equalNan <;>
  simp [iscloseValue, iscloseSelect, iscloseElement, iscloseEqualNan, tolerance, Ext.abs, Ext.mul, Ext.add, Ext.sub, Ext.neg, Ext.le, Ext.isnan,
    Ext.isinf, sub_eq_add_neg]

/-- **C66** (NaN): NaN is close to nothing, except for NaN if this is asked for. -/
theorem C66_nan (r a x : Ext) :
    iscloseValue false r a .nan x = false ∧ iscloseValue false r a x .nan = false ∧
    iscloseValue true r a .nan .nan = true ∧
    (x ≠ .nan → iscloseValue true r a .nan x = false ∧ iscloseValue true r a x .nan = false) := by
  refine ⟨?_, ?_, rfl, fun hx => ⟨?_, ?_⟩⟩
  · simp [iscloseValue, iscloseSelect, iscloseElement, Ext.sub, Ext.add, Ext.abs, Ext.le]
  · cases x <;> simp [iscloseValue, iscloseSelect, iscloseElement, Ext.sub, Ext.neg, Ext.add, Ext.abs, Ext.le]
  · cases x <;> simp_all [iscloseValue, iscloseSelect, iscloseEqualNan, Ext.sub, Ext.neg, Ext.add, Ext.abs, Ext.le, Ext.isnan, Ext.isinf]
  · cases x <;> simp_all [iscloseValue, iscloseSelect, iscloseEqualNan, Ext.sub, Ext.neg, Ext.add, Ext.abs, Ext.le, Ext.isnan, Ext.isinf]

/-- **C66** (infinities, partial: the second argument is finite, or equal to the first, or the relative tolerance is zero): an
infinity is not close to anything else, and to itself only if the flag is set. -/
theorem C66_infinite_partial (equalNan : Bool) (r a : ℚ) (x y : Ext) (hx : x ≠ .nan) (hy : y ≠ .nan)
    (hinf : x.isinf = true ∨ y.isinf = true) (hc : y.isfinite = true ∨ x = y ∨ r = 0) :
    iscloseValue equalNan (.fin r) (.fin a) x y = (equalNan && decide (x = y)) := by
  cases equalNan <;> cases x <;> cases y <;>
    simp_all [iscloseValue, iscloseSelect, iscloseElement, iscloseEqualNan, tolerance, Ext.abs, Ext.mul, Ext.add, Ext.sub, Ext.neg, Ext.le, Ext.isnan,
      Ext.isinf, Ext.isfinite, Ext.signbit, Ext.infOfSign]

/-- **C66** (infinities) is false if the second argument is infinite: then the tolerance is, and everything but NaN is close to it,
also an infinity of the other sign (if NaN compares equal, everything but NaN). -/
theorem C66_wrong_for_infinity (equalNan : Bool) (r a : ℚ) (hr : 0 < r) (x : ℚ) :
    iscloseValue equalNan (.fin r) (.fin a) (.fin x) .pinf = true ∧
    iscloseValue equalNan (.fin r) (.fin a) .ninf .pinf = true ∧
    iscloseValue equalNan (.fin r) (.fin a) .pinf .ninf = true := by
  have h0 : r ≠ 0 := ne_of_gt hr
  cases equalNan <;>
    simp [iscloseValue, iscloseSelect, iscloseElement, iscloseEqualNan, tolerance, Ext.abs, Ext.mul, Ext.add, Ext.sub, Ext.neg, Ext.le, Ext.isnan,
      Ext.isinf, Ext.signbit, Ext.infOfSign, h0, hr]

/-- **C66** (reflexive): everything is close to itself if NaN compares equal and tolerances are not negative. -/
theorem C66_reflexive (r a : ℚ) (hr : 0 ≤ r) (ha : 0 ≤ a) (x : Ext) : iscloseValue true (.fin r) (.fin a) x x = true := by
  cases x with
  | nan => rfl
  | ninf => rfl
  | pinf => rfl
  | fin q =>
    rw [C66_finite]
    have := mul_nonneg hr (abs_nonneg q)
    simp
    linarith

/-- **C66** (variances): with variances both values and standard deviations have to be close. -/
theorem C66_variances (equalNan : Bool) (r a x sx y sy : ℚ) :
    iscloseBoth equalNan (.fin r) (.fin a) (.fin x) (.fin sx) (.fin y) (.fin sy) = true ↔
      |x - y| ≤ a + r * |y| ∧ |sx - sy| ≤ a + r * |sy| := by
  simp only [iscloseBoth, Bool.and_eq_true, C66_finite]

/-- **C66** (units): accepted if and only if both arguments and the absolute tolerance have the same unit, and the relative tolerance
is dimensionless, or without unit if they have none; the result has no unit. -/
theorem C66_units {n : Nat} (ρ : ExpRange n) (a b rtol atol u : MUnit n) (hb : ∀ v, b = some v → ρ.fits v = true) :
    iscloseUnits ρ a b rtol atol = .ok u ↔
      u = none ∧ a = b ∧ atol = b ∧ rtol = (if b = none then none else MUnit.one) := by
  unfold iscloseUnits
  by_cases h1 : (if atol = none then none else MUnit.one) ≠ rtol
  · rw [if_pos h1]
    constructor
    · intro h; simp at h
    · rintro ⟨_, _, rfl, h⟩; exact absurd h.symm h1
  · rw [if_neg h1]
    simp only [ne_eq, not_not] at h1
    subst h1
    cases atol with
    | none =>
      cases b with
      | none =>
        simp only [if_true, MUnit.mul, MUnit.add]
        cases a with
        | none => simp [eq_comm]
        | some a => simp
      | some b => simp [MUnit.mul]
    | some t =>
      cases b with
      | none => simp [MUnit.mul, MUnit.one]
      | some b =>
        have hm : MUnit.mul ρ MUnit.one (some b) = .ok (some b) := by
          have e : PreciseUnit.mul ⟨1, fun _ => 0⟩ b = b := by
            simp [PreciseUnit.mul]
          simp [MUnit.mul, MUnit.one, e, hb b rfl]
        simp only [reduceCtorEq, if_false, hm, MUnit.add]
        by_cases e1 : (some t : MUnit n) = some b
        · rw [if_pos e1]
          simp only
          by_cases e2 : a = some b
          · subst e2; simp [e1, eq_comm]
          · simp [e2]
        · rw [if_neg e1]
          constructor
          · intro h; simp at h
          · rintro ⟨_, _, h, _⟩; exact absurd h e1

example : iscloseValue false (.fin (1 / 10)) (.fin 0) (.fin 9) (.fin 10) = true ∧
    iscloseValue false (.fin (1 / 10)) (.fin 0) (.fin 10) (.fin 9) = false := by decide +kernel
example : iscloseValue true (.fin (1 / 10)) (.fin 0) .pinf .pinf = true ∧ iscloseValue false (.fin (1 / 10)) (.fin 0) .pinf .pinf = false ∧
    iscloseValue true (.fin (1 / 10)) (.fin 0) .pinf (.fin 9) = false := by decide +kernel
example : iscloseBoth false (.fin 0) (.fin 1) (.fin 9) (.fin 1) (.fin 10) (.fin 3) = false := by decide +kernel
example : iscloseUnits (n := 1) (fun _ => (-8, 7)) (some ⟨1, fun _ => 1⟩) (some ⟨1, fun _ => 1⟩) MUnit.one (some ⟨1, fun _ => 1⟩) = .ok none ∧
    iscloseUnits (n := 1) (fun _ => (-8, 7)) (some ⟨1, fun _ => 1⟩) (some ⟨1, fun _ => 1⟩) none none = .error .unit := by
  constructor
  · exact (C66_units _ _ _ _ _ _ (by intro v h; injection h with h; subst h; decide)).2 ⟨rfl, rfl, rfl, rfl⟩
  · rfl

end Scipp.Props
