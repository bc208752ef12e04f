import Verif.Spec.VarianceFlags
/-
Lemmas about the dispatch on variances.
-/
namespace Scipp.VarFlags
variable {F : Type}

/-- What an operand becomes after `collect`. -/
def proc (d : Data F) : Processed F :=
  match d.variances with
  | none => .vals d.values
  | some s => .both d.values s

theorem proc_isBoth (d : Data F) : (proc d).isBoth = true ↔ d.variances ≠ none := by
  unfold proc; cases h : d.variances <;> simp [Processed.isBoth]

theorem proc_at (d : Data F) (i : Nat) : (proc d).at_ i = d.elem i := by
  unfold proc Data.elem; cases h : d.variances <;> simp [Processed.at_]

theorem argsAt_proc (ins : List (Data F)) (i : Nat) : argsAt (ins.map proc) i = ins.map (fun d => d.elem i) := by
  simp [argsAt, proc_at]

/-- Requirements on single arguments, starting with argument `k`. -/
def Single (f : Flags) (cannot : Bool) (k : Nat) (ins : List (Data F)) : Prop :=
  ∀ j d, ins[j]? = some d → (k + j ∈ f.noArg → d.variances = none) ∧ (k + j ∈ f.needArg → d.variances ≠ none) ∧
    (cannot = true → d.variances = none)

theorem single_cons (f : Flags) (c : Bool) (k : Nat) (d : Data F) (ds : List (Data F)) :
    Single f c k (d :: ds) ↔ ((k ∈ f.noArg → d.variances = none) ∧ (k ∈ f.needArg → d.variances ≠ none) ∧
      (c = true → d.variances = none)) ∧ Single f c (k + 1) ds := by
  constructor
  · intro h
    refine ⟨by simpa using h 0 d rfl, fun j e hj => ?_⟩
    have := h (j + 1) e (by simpa using hj)
    rwa [show k + (j + 1) = k + 1 + j by omega] at this
  · rintro ⟨h0, h1⟩ j e hj
    cases j with
    | zero => simp at hj; subst hj; simpa using h0
    | succ j =>
      have := h1 j e (by simpa using hj)
      rwa [show k + (j + 1) = k + 1 + j by omega]

theorem collect_eq (f : Flags) (outCan : Bool) (k : Nat) (ins : List (Data F)) :
    (Single f (f.noInIfOutCannot && !outCan) k ins → collect f outCan k ins = .ok (ins.map proc)) ∧
    (¬ Single f (f.noInIfOutCannot && !outCan) k ins → collect f outCan k ins = .error .variances) := by
  induction ins generalizing k with
  | nil => exact ⟨fun _ => rfl, fun h => absurd (fun j d hj => by simp at hj) h⟩
  | cons d ds ih =>
    rw [single_cons]
    obtain ⟨i1, i2⟩ := ih (k + 1)
    cases hv : d.variances with
    | none =>
      have hp : proc d = .vals d.values := by simp [proc, hv]
      constructor
      · rintro ⟨h0, h1⟩
        have : ¬ k ∈ f.needArg := fun hk => h0.2.1 hk rfl
        simp [collect, hv, this, i1 h1, Except.map, hp]
      · intro h
        by_cases hk : k ∈ f.needArg
        · simp [collect, hv, hk]
        · have : ¬ Single f (f.noInIfOutCannot && !outCan) (k + 1) ds := fun h1 =>
            h ⟨⟨fun _ => rfl, fun h => absurd h hk, fun _ => rfl⟩, h1⟩
          simp [collect, hv, hk, i2 this, Except.map]
    | some s =>
      have hp : proc d = .both d.values s := by simp [proc, hv]
      constructor
      · rintro ⟨h0, h1⟩
        have a : ¬ k ∈ f.noArg := fun hk => by cases h0.1 hk
        have b : (f.noInIfOutCannot && !outCan) = false := by
          cases hb : (f.noInIfOutCannot && !outCan) with
          | false => rfl
          | true => cases h0.2.2 hb
        rw [collect, hv]
        simp [a, b, i1 h1, Except.map, hp]
      · intro h
        rw [collect, hv]
        by_cases hk : k ∈ f.noArg
        · simp [hk]
        · cases hb : (f.noInIfOutCannot && !outCan) with
          | true => simp [hk]
          | false =>
            have : ¬ Single f (f.noInIfOutCannot && !outCan) (k + 1) ds := fun h1 =>
              h ⟨⟨fun h => absurd h hk, fun _ => by simp, fun h => by simp [hb] at h⟩, h1⟩
            simp [hk, i2 this, Except.map]

theorem collectInPlace_eq (f : Flags) (k : Nat) (ins : List (Data F)) :
    (Single f false k ins → collectInPlace f k ins = .ok (ins.map proc)) ∧
    (¬ Single f false k ins → collectInPlace f k ins = .error .variances) := by
  induction ins generalizing k with
  | nil => exact ⟨fun _ => rfl, fun h => absurd (fun j d hj => by simp at hj) h⟩
  | cons d ds ih =>
    rw [single_cons]
    obtain ⟨i1, i2⟩ := ih (k + 1)
    cases hv : d.variances with
    | none =>
      have hp : proc d = .vals d.values := by simp [proc, hv]
      constructor
      · rintro ⟨h0, h1⟩
        have : ¬ k ∈ f.needArg := fun hk => h0.2.1 hk rfl
        simp [collectInPlace, hv, this, i1 h1, Except.map, hp]
      · intro h
        by_cases hk : k ∈ f.needArg
        · simp [collectInPlace, hv, hk]
        · have : ¬ Single f false (k + 1) ds := fun h1 =>
            h ⟨⟨fun _ => rfl, fun h => absurd h hk, fun _ => rfl⟩, h1⟩
          simp [collectInPlace, hv, hk, i2 this, Except.map]
    | some s =>
      have hp : proc d = .both d.values s := by simp [proc, hv]
      constructor
      · rintro ⟨h0, h1⟩
        have a : ¬ k ∈ f.noArg := fun hk => by cases h0.1 hk
        rw [collectInPlace, hv]
        simp [a, i1 h1, Except.map, hp]
      · intro h
        rw [collectInPlace, hv]
        by_cases hk : k ∈ f.noArg
        · simp [hk]
        · have : ¬ Single f false (k + 1) ds := fun h1 =>
            h ⟨⟨fun h => absurd h hk, fun _ => by simp, fun h => by simp at h⟩, h1⟩
          simp [hk, i2 this, Except.map]

theorem any_isBoth (ins : List (Data F)) : (ins.map proc).any Processed.isBoth = true ↔ SomeVar ins := by
  simp [SomeVar, proc_isBoth]

theorem any_has (ins : List (Data F)) : ins.any Data.has = true ↔ SomeVar ins := by
  simp [SomeVar, Data.has, Option.isSome_iff_ne_none]

theorem allOrNone_iff (f : Flags) (ins : List (Data F)) :
    allOrNoneViolated f (ins.map proc) = false ↔
      (f.allOrNone = true → (∀ d ∈ ins, d.variances = none) ∨ ∀ d ∈ ins, d.variances ≠ none) := by
  have h1 : (ins.map proc).all Processed.isBoth = true ↔ ∀ d ∈ ins, d.variances ≠ none := by simp [proc_isBoth]
  have h2 := any_isBoth ins
  have h3 : ¬ SomeVar ins ↔ ∀ d ∈ ins, d.variances = none := by simp [SomeVar]
  unfold allOrNoneViolated
  cases f.allOrNone <;> cases ha : (ins.map proc).all Processed.isBoth <;>
    cases hb : (ins.map proc).any Processed.isBoth <;> simp_all

theorem writePlain_ok (g : Nat → Elem F) (n : Nat) (v : Nat → F) (h : ∀ i < n, ∃ x, g i = .plain x) :
    ∃ w, writePlain g n v = .ok w ∧ (∀ i < n, g i = .plain (w i)) ∧ ∀ i, n ≤ i → w i = v i := by
  induction n with
  | zero => exact ⟨v, rfl, fun i hi => absurd hi (by omega), fun _ _ => rfl⟩
  | succ n ih =>
    obtain ⟨w, h1, h2, h3⟩ := ih (fun i hi => h i (by omega))
    obtain ⟨x, hx⟩ := h n (by omega)
    refine ⟨fun i => if i = n then x else w i, ?_, ?_, ?_⟩
    · simp [writePlain, h1, hx, assignPlain, bind, Except.bind]
    · intro i hi
      by_cases e : i = n
      · subst e; simpa using hx
      · simpa [e] using h2 i (by omega)
    · intro i hi
      have : i ≠ n := by omega
      simpa [this] using h3 i (by omega)

theorem writeBoth_spec [Zero F] (g : Nat → Elem F) (n : Nat) (o : (Nat → F) × (Nat → F)) :
    (∀ i < n, ((writeBoth g n o).1 i, (writeBoth g n o).2 i) = assignBoth (g i)) ∧
    ∀ i, n ≤ i → (writeBoth g n o).1 i = o.1 i ∧ (writeBoth g n o).2 i = o.2 i := by
  induction n with
  | zero => exact ⟨fun i hi => absurd hi (by omega), fun _ _ => ⟨rfl, rfl⟩⟩
  | succ n ih =>
    refine ⟨fun i hi => ?_, fun i hi => ?_⟩
    · by_cases e : i = n
      · subst e; simp [writeBoth]
      · simpa [writeBoth, e] using ih.1 i (by omega)
    · have : i ≠ n := by omega
      simpa [writeBoth, this] using ih.2 i (by omega)

theorem holds_both [Zero F] (g : Nat → Elem F) (n : Nat) (o : (Nat → F) × (Nat → F)) :
    Holds g n ⟨(writeBoth g n o).1, some (writeBoth g n o).2⟩ := by
  intro i hi
  have h := (writeBoth_spec g n o).1 i hi
  cases hg : g i with
  | plain v => rw [hg] at h; simpa [assignBoth] using h
  | pair v s => rw [hg] at h; simpa [assignBoth] using h

theorem innerLoop_get (strides : List Int) (n : Nat) (indices : List Int) (j : Nat) (hl : indices.length = strides.length) :
    (innerLoop strides n indices)[j]? =
      if j < n then some (List.zipWith (fun i s => i + (j : Int) * s) indices strides) else none := by
  induction n generalizing indices j with
  | zero => simp [innerLoop]
  | succ n ih =>
    cases j with
    | zero =>
      simp only [innerLoop, List.getElem?_cons_zero, Nat.zero_lt_succ, if_true, Option.some.injEq]
      apply List.ext_getElem
      · simp [hl]
      · intro i h1 h2; simp
    | succ j =>
      simp only [innerLoop, List.getElem?_cons_succ]
      rw [ih _ _ (by simp [increment, hl])]
      simp only [Nat.succ_lt_succ_iff]
      split
      · congr 1
        apply List.ext_getElem
        · simp [increment, hl]
        · intro i h1 h2
          simp [increment, Int.add_mul]; omega
      · rfl

theorem dispatch_eq (cases_ : List (List Int)) (indices strides : List Int) (n : Nat) :
    dispatch cases_ indices strides n = innerLoop strides n indices := by
  induction cases_ with
  | nil => rfl
  | cons c cs ih =>
    unfold dispatch
    by_cases h : strides = c
    · simp [h]
    · simp [h, ih]

end Scipp.VarFlags
