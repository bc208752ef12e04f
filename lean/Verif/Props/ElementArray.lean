import Verif.Model.ElementArray
import Mathlib.Logic.Function.Basic
/-
**C76**: the array of elements of a variable is an optional list.
-/
namespace Scipp.Props
open ElementArray

variable {α : Type}

/-- The specification: every array is an optional list of elements, some of which may not have been initialised. -/
abbrev Lists (α : Type) := Nat → Option (List (Option α))

/-- What an operation does to optional lists; `none` if it must not be called. A negative size is an error that changes nothing. -/
def listsStep (zero : α) (t : Lists α) : Op α → Option (Lists α)
  | .default dst => some (Function.update t dst none)
  | .fill dst n v => some (if n < 0 then t else Function.update t dst (some (List.replicate n.toNat (some v))))
  | .range dst l => some (Function.update t dst (some (l.map some)))
  | .copy dst src => some (Function.update t dst (t src))
  | .move dst src => some (Function.update (Function.update t src none) dst (t src))
  | .copyAssign dst src => some (Function.update t dst (t src))
  | .moveAssign dst src => some (if dst = src then t else Function.update (Function.update t src none) dst (t src))
  | .reset dst => some (Function.update t dst none)
  | .resize dst n => some (if n < 0 then t else Function.update t dst (some (List.replicate n.toNat (some zero))))
  | .resizeForOverwrite dst n =>
    some (if n < 0 then t else if (t dst).map (fun l => (l.length : Int)) = some n then t else Function.update t dst (some (List.replicate n.toNat none)))
  | .write dst i v =>
    match t dst with
    | some l => if i < l.length then some (Function.update t dst (some (l.set i (some v)))) else none
    | none => none

/-- Excepted: assigning a copy of an array that is not set, moving an array to itself, and the size −1. -/
def Ordinary (t : Lists α) : Op α → Prop
  | .copyAssign _ src => t src ≠ none
  | .moveAssign dst src => dst ≠ src
  | .fill _ n _ => n ≠ -1
  | .resize _ n => n ≠ -1
  | _ => True

/-- What a program does to optional lists: it only has operations that may be called, and none of the excepted ones. -/
inductive ListsRun (zero : α) : Lists α → List (Op α) → Lists α → Prop
  | done (t) : ListsRun zero t [] t
  | step {t t' t'' op ops} (ho : Ordinary t op) (h : listsStep zero t op = some t') (hr : ListsRun zero t' ops t'') : ListsRun zero t (op :: ops) t''

/-- The content of an array: what is found by `bool(a)`, `size` and `data`. -/
def contentOf (a : Arr α) : Option (List (Option α)) := if a.size = -1 then none else some ((a.data.getD []).take a.size.toNat)

private def Good (a : Arr α) : Prop :=
  a = unset ∨ a = ⟨0, none⟩ ∨ ∃ l : List (Option α), l ≠ [] ∧ a = ⟨l.length, some l⟩

private theorem good_cases {a : Arr α} (h : Good a) : a = unset ∧ contentOf a = none ∨ a = ⟨0, none⟩ ∧ contentOf a = some [] ∨
    ∃ l : List (Option α), l ≠ [] ∧ a = ⟨l.length, some l⟩ ∧ contentOf a = some l := by
  rcases h with rfl | rfl | ⟨l, hl, rfl⟩
  · exact .inl ⟨rfl, rfl⟩
  · exact .inr (.inl ⟨rfl, rfl⟩)
  · refine .inr (.inr ⟨l, hl, rfl, ?_⟩)
    unfold contentOf
    rw [if_neg (by simp only []; omega)]
    simp

/-- The array with a list. -/
private def holding (l : List (Option α)) : Arr α := if l = [] then ⟨0, none⟩ else ⟨l.length, some l⟩

private theorem good_holding (l : List (Option α)) : Good (holding l) ∧ contentOf (holding l) = some l := by
  unfold holding
  split
  · rename_i h; subst h; exact ⟨.inr (.inl rfl), rfl⟩
  · rename_i h
    have hg : Good (⟨l.length, some l⟩ : Arr α) := .inr (.inr ⟨l, h, rfl⟩)
    refine ⟨hg, ?_⟩
    unfold contentOf
    rw [if_neg (by simp only []; omega)]
    simp

private theorem ofRange_eq (l : List (Option α)) : ofRange l = .ok (holding l) := by
  unfold ofRange ElementArray.resizeForOverwrite holding
  by_cases hl : l = []
  · subst hl; simp [ElementArray.write]
  · have : 0 < l.length := List.length_pos_iff.2 hl
    rw [if_neg (by omega), if_pos (by simp only [unset]; omega), if_neg hl]
    simp only [allocate, if_neg (show ¬ ((l.length : Int) < 0) by omega), ElementArray.write, if_neg (show ¬ ((l.length : Int) ≤ 0) by omega), Option.map_some]

private theorem filled_eq (n : Int) (hn : n ≠ -1) (v : α) : filled n v = if n < 0 then .error .runtime else .ok (holding (List.replicate n.toNat (some v))) := by
  unfold filled ElementArray.resizeForOverwrite holding
  by_cases h0 : n = 0
  · subst h0; simp [ElementArray.write]
  · rw [if_neg h0, if_pos (by simpa [unset] using hn)]
    by_cases hneg : n < 0
    · simp [allocate, hneg]
    · have : n.toNat ≠ 0 := by omega
      simp only [allocate, if_neg hneg, ElementArray.write, if_neg (show ¬ n ≤ 0 by omega), Option.map_some, List.replicate_eq_nil_iff, if_neg this,
        List.length_replicate]
      rw [show ((n.toNat : Nat) : Int) = n by omega]

private theorem between_eq {a : Arr α} (h : Good a) : between a = .ok ((contentOf a).getD []) := by
  rcases good_cases h with ⟨rfl, hc⟩ | ⟨rfl, hc⟩ | ⟨l, hl, rfl, hc⟩ <;> rw [hc] <;> unfold between
  · rfl
  · rfl
  · have : 0 < l.length := List.length_pos_iff.2 hl
    rw [if_neg (by simp only []; omega)]
    simp

private theorem set_good {s : State α} {t : Lists α} (hg : ∀ i, Good (s i)) (hc : ∀ i, contentOf (s i) = t i) {dst : Nat} {a : Arr α} {x : Option (List (Option α))}
    (ha : Good a) (hx : contentOf a = x) : (∀ i, Good (s.set dst a i)) ∧ ∀ i, contentOf (s.set dst a i) = Function.update t dst x i := by
  refine ⟨fun i => ?_, fun i => ?_⟩ <;> unfold State.set
  · split
    · exact ha
    · exact hg i
  · split
    · rename_i h; subst h; simp [hx]
    · rename_i h; rw [Function.update_of_ne h, hc]

private theorem copyOf_eq {a : Arr α} (h : Good a) : copyOf a = .ok a := by
  rcases h with rfl | rfl | ⟨l, hl, rfl⟩
  · rfl
  · rfl
  · have hp : 0 < l.length := List.length_pos_iff.2 hl
    unfold copyOf
    rw [if_neg (by simp only []; omega), if_neg (by simp only []; omega), between_eq (.inr (.inr ⟨l, hl, rfl⟩))]
    have := (good_holding l).2
    unfold holding at this
    rw [if_neg hl] at this
    rw [this]
    simp only [Option.getD_some]
    rw [ofRange_eq, holding, if_neg hl]

private theorem step_ok {zero : α} {s : State α} {t t' : Lists α} {op : Op α} (hg : ∀ i, Good (s i)) (hc : ∀ i, contentOf (s i) = t i)
    (ho : Ordinary t op) (h : listsStep zero t op = some t') :
    (∃ s', step zero s op = .ok s' ∧ (∀ i, Good (s' i)) ∧ ∀ i, contentOf (s' i) = t' i) ∨ step zero s op = .error .runtime ∧ t' = t := by
  have hu : Good (unset : Arr α) := .inl rfl
  cases op with
  | default dst =>
    cases h
    exact .inl ⟨_, rfl, set_good hg hc hu rfl⟩
  | reset dst =>
    cases h
    exact .inl ⟨_, rfl, set_good hg hc hu rfl⟩
  | fill dst n v =>
    simp only [listsStep, Option.some.injEq] at h
    simp only [step, filled_eq n ho]
    split at h
    · rename_i hn; rw [if_pos hn]; exact .inr ⟨rfl, h.symm⟩
    · rename_i hn; rw [if_neg hn]; subst h
      exact .inl ⟨_, rfl, set_good hg hc (good_holding _).1 (good_holding _).2⟩
  | resize dst n =>
    simp only [listsStep, Option.some.injEq] at h
    simp only [step, filled_eq n ho]
    split at h
    · rename_i hn; rw [if_pos hn]; exact .inr ⟨rfl, h.symm⟩
    · rename_i hn; rw [if_neg hn]; subst h
      exact .inl ⟨_, rfl, set_good hg hc (good_holding _).1 (good_holding _).2⟩
  | range dst l =>
    cases h
    simp only [step, ofRange_eq]
    exact .inl ⟨_, rfl, set_good hg hc (good_holding _).1 (good_holding _).2⟩
  | copy dst src =>
    cases h
    simp only [step, copyOf_eq (hg src)]
    exact .inl ⟨_, rfl, set_good hg hc (hg src) (hc src)⟩
  | move dst src =>
    cases h
    have h1 := set_good (dst := src) hg hc hu (x := none) rfl
    exact .inl ⟨_, rfl, set_good h1.1 h1.2 (hg src) (hc src)⟩
  | copyAssign dst src =>
    cases h
    simp only [step, between_eq (hg src), ofRange_eq]
    refine .inl ⟨_, rfl, set_good hg hc (good_holding _).1 ?_⟩
    rw [(good_holding _).2, hc]
    cases hs : t src with
    | none => exact absurd hs ho
    | some l => rfl
  | moveAssign dst src =>
    have hne : dst ≠ src := ho
    simp only [listsStep, if_neg hne, Option.some.injEq] at h
    subst h
    have h1 := set_good (dst := src) hg hc hu (x := none) rfl
    refine .inl ⟨_, rfl, ?_⟩
    have he : ElementArray.moveAssign s dst src = (s.set src unset).set dst (s src) := by
      funext j
      by_cases h1 : j = src
      · subst h1; simp [ElementArray.moveAssign, State.set, unset, Ne.symm hne]
      · by_cases h2 : j = dst
        · subst h2; simp [ElementArray.moveAssign, State.set, Ne.symm hne, h1]
        · simp [ElementArray.moveAssign, State.set, h1, h2]
    rw [he]
    exact set_good h1.1 h1.2 (hg src) (hc src)
  | resizeForOverwrite dst n =>
    simp only [listsStep, Option.some.injEq] at h
    simp only [step]
    unfold ElementArray.resizeForOverwrite
    have hsame : s.set dst (s dst) = s := by funext j; unfold State.set; split <;> simp_all
    have hrep : ∀ m : Int, 0 < m → (⟨m, some (List.replicate m.toNat none)⟩ : Arr α) = holding (List.replicate m.toNat none) := by
      intro m hm
      unfold holding
      rw [if_neg (by simp; omega), List.length_replicate, show ((m.toNat : Nat) : Int) = m by omega]
    have hsize : 0 ≤ n → ((t dst).map (fun l => (l.length : Int)) = some n ↔ n = (s dst).size) := by
      intro hn
      rw [← hc dst]
      rcases good_cases (hg dst) with ⟨h1, h2⟩ | ⟨h1, h2⟩ | ⟨l, hl, h1, h2⟩ <;> rw [h2, h1]
      · simp [unset]; omega
      · simp [eq_comm]
      · simp [eq_comm]
    by_cases h0 : n = 0
    · rw [if_pos h0]
      subst h0
      rw [if_neg (by omega)] at h
      have hset := set_good (dst := dst) hg hc (a := (⟨0, none⟩ : Arr α)) (.inr (.inl rfl)) (x := some []) rfl
      refine .inl ⟨_, rfl, hset.1, fun i => ?_⟩
      rw [hset.2]
      split at h
      · rename_i h3
        subst h
        cases hd : t dst with
        | none => rw [hd] at h3; simp at h3
        | some l =>
          rw [hd] at h3
          have : l = [] := by simpa using h3
          rw [← this, ← hd, Function.update_eq_self]
      · subst h; rfl
    · rw [if_neg h0]
      by_cases hs : n = (s dst).size
      · rw [if_neg (by simpa using hs)]
        simp only [Except.map, hsame]
        have : t' = t := by
          split at h
          · exact h.symm
          · rename_i hn
            rw [if_pos ((hsize (by omega)).2 hs)] at h; exact h.symm
        subst this
        exact .inl ⟨s, rfl, hg, hc⟩
      · rw [if_pos (by simpa using hs)]
        unfold allocate
        split at h
        · rename_i hn; rw [if_pos hn]; exact .inr ⟨rfl, h.symm⟩
        · rename_i hn
          rw [if_neg hn]
          rw [if_neg (fun hh => hs ((hsize (by omega)).1 hh))] at h
          subst h
          refine .inl ⟨_, rfl, ?_⟩
          refine set_good hg hc ?_ ?_
          · rw [hrep n (by omega)]; exact (good_holding _).1
          · rw [hrep n (by omega)]; exact (good_holding _).2
  | write dst i v =>
    simp only [listsStep] at h
    simp only [step]
    have hcd := hc dst
    rcases good_cases (hg dst) with ⟨h1, h2⟩ | ⟨h1, h2⟩ | ⟨l, hl, h1, h2⟩ <;> rw [h2] at hcd <;> rw [← hcd] at h
    · simp at h
    · simp at h
    · simp only [] at h
      split at h
      · rename_i hi
        injection h with h
        subst h
        rw [h1]
        simp only [if_pos hi]
        refine .inl ⟨_, rfl, set_good hg hc ?_ ?_⟩
        · refine .inr (.inr ⟨l.set i (some v), ?_, by simp⟩)
          intro hn
          have : (l.set i (some v)).length = 0 := by rw [hn]; rfl
          rw [List.length_set] at this; omega
        · unfold contentOf
          rw [if_neg (by simp only []; omega)]
          simp only [Option.getD_some, Int.toNat_natCast]
          rw [List.take_of_length_le (by rw [List.length_set]; exact Nat.le_refl _)]
      · cases h

/-- **C76** (content): any program of operations on arrays, from arrays that are not set, runs without undefined behaviour, and the arrays have the content of optional lists with the same
operations done to them. Operations that must not be called are writes to elements that do not exist; the excepted ones are those of the `C76_wrong_` theorems. -/
theorem C76_content_partial (zero : α) (ops : List (Op α)) (t : Lists α) (h : ListsRun zero (fun _ => none) ops t) :
    ∃ s, run zero (fun _ => unset) ops = .ok s ∧ ∀ i, contentOf (s i) = t i := by
  suffices H : ∀ (t0 : Lists α) (s0 : State α), (∀ i, Good (s0 i)) → (∀ i, contentOf (s0 i) = t0 i) → ListsRun zero t0 ops t →
      ∃ s, run zero s0 ops = .ok s ∧ ∀ i, contentOf (s i) = t i from H _ _ (fun _ => .inl rfl) (fun _ => rfl) h
  clear h
  intro t0 s0 hg hc hr
  induction hr generalizing s0 with
  | done t => exact ⟨s0, rfl, hc⟩
  | step ho h hr ih =>
    unfold run
    rcases step_ok hg hc ho h with ⟨s', h1, h2, h3⟩ | ⟨h1, rfl⟩
    · rw [h1]; exact ih s' h2 h3
    · rw [h1]; exact ih s0 hg hc

/-- Two elements, copied; one of the copy is written to; the copy is moved; resizing to the same size for overwriting keeps the elements, a negative size throws. -/
example : let ops : List (Op Int) := [.range 0 [4, 5], .copy 1 0, .write 1 0 7, .moveAssign 2 1, .resizeForOverwrite 2 2, .resizeForOverwrite 2 (-2), .fill 0 (-5) 1]
    (match run 0 (fun _ => unset) ops with | .ok s => (contentOf (s 0), contentOf (s 1), contentOf (s 2)) | .error _ => (none, none, none)) =
      (some [some 4, some 5], none, some [some 7, some 5]) ∧
    ∃ t, ListsRun 0 (fun _ => none) ops t := by
  exact ⟨by decide, _, .step trivial rfl <| .step trivial rfl <| .step trivial rfl <| .step (show (2 : Nat) ≠ 1 by decide) rfl <|
    .step trivial rfl <| .step trivial rfl <| .step (show (-5 : Int) ≠ -1 by decide) rfl <| .done _⟩

/-- **C76** (wrong): a copy of an array that is not set is not set if constructed, but set, and without elements, if assigned. -/
theorem C76_wrong_copy_assign (zero : α) (s : State α) (dst src : Nat) (h : s src = unset) :
    (∃ s', step zero s (.copy dst src) = .ok s' ∧ contentOf (s' dst) = none) ∧ ∃ s', step zero s (.copyAssign dst src) = .ok s' ∧ contentOf (s' dst) = some [] := by
  refine ⟨⟨s.set dst unset, by simp [step, h, copyOf, unset, Except.map], by simp [State.set, contentOf, unset]⟩, s.set dst ⟨0, none⟩, ?_, by simp [State.set, contentOf]⟩
  simp only [step, h]
  rw [between_eq (.inl rfl), show contentOf (unset : Arr α) = none from rfl]
  simp only [Option.getD_none, ofRange_eq]
  rfl

example : (fun _ => unset : State Int) 1 = unset := rfl

/-- **C76** (wrong): an array moved to itself is no longer set. -/
theorem C76_wrong_self_move (zero : α) (s : State α) (i : Nat) : ∃ s', step zero s (.moveAssign i i) = .ok s' ∧ contentOf (s' i) = none :=
  ⟨_, rfl, by simp [ElementArray.moveAssign, State.set, contentOf]⟩

/-- **C76** (wrong): the size −1 is not an error: the array is not set. Any other negative size is. -/
theorem C76_wrong_minus_one (v : α) : filled (-1) v = .ok unset ∧ ∀ n < -1, filled n v = .error .runtime := by
  refine ⟨rfl, fun n hn => ?_⟩
  rw [filled_eq n (by omega), if_pos (by omega)]

end Scipp.Props
