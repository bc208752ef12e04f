import Verif.Lemmas.VarianceFlags
import Mathlib.Tactic.ByContra
/-
C96: uncertainties are neither dropped nor invented by element-wise operations.
-/
namespace Scipp.Props
open Scipp VarFlags
variable {F : Type} [Zero F]

/-- An operation runs exactly if its operands satisfy its requirements (and, for operations flagged
that way, if no operand has variances when the type of the output cannot have them); otherwise it
throws a variances error. In particular the output is always able to take what is written. -/
theorem C96_transform_iff (f : Flags) (op : List (Elem F) → Elem F) (outCan : Bool) (n : Nat) (fresh : Nat → F)
    (ins : List (Data F)) (ht : Typed (f.noOut = true ∨ outCan = false) op) :
    (∃ r, VarFlags.transform f op outCan n fresh ins = .ok r) ↔
      Accepts f 0 ins ∧ (f.noInIfOutCannot = true → outCan = false → ¬ SomeVar ins) := by
  have hS : Single f (f.noInIfOutCannot && !outCan) 0 ins ∧ allOrNoneViolated f (ins.map proc) = false ↔
      Accepts f 0 ins ∧ (f.noInIfOutCannot = true → outCan = false → ¬ SomeVar ins) := by
    rw [allOrNone_iff]
    constructor
    · rintro ⟨h1, h2⟩
      refine ⟨⟨fun j d hj => (h1 j d hj).1, fun j d hj => (h1 j d hj).2.1, h2⟩, ?_⟩
      rintro a b ⟨d, hd, hne⟩
      obtain ⟨j, hj⟩ := List.getElem?_of_mem hd
      exact hne ((h1 j d hj).2.2 (by simp [a, b]))
    · rintro ⟨h1, h2⟩
      refine ⟨fun j d hj => ⟨h1.forbidden j d hj, h1.required j d hj, fun hc => ?_⟩, h1.allOrNone⟩
      simp only [Bool.and_eq_true, Bool.not_eq_true'] at hc
      by_contra hne
      exact h2 hc.1 hc.2 ⟨d, List.mem_of_getElem? hj, hne⟩
  rw [← hS]
  constructor
  · rintro ⟨r, hr⟩
    by_cases h1 : Single f (f.noInIfOutCannot && !outCan) 0 ins
    · refine ⟨h1, ?_⟩
      cases hv : allOrNoneViolated f (ins.map proc) with
      | false => rfl
      | true =>
        simp only [VarFlags.transform, (collect_eq f outCan 0 ins).1 h1, bind, Except.bind, finish, hv] at hr
        simp at hr
    · simp only [VarFlags.transform, (collect_eq f outCan 0 ins).2 h1, bind, Except.bind] at hr
      cases hr
  · rintro ⟨h1, h2⟩
    simp only [VarFlags.transform, (collect_eq f outCan 0 ins).1 h1, bind, Except.bind, finish, h2]
    have hab : (ins.map proc).any Processed.isBoth = ins.any Data.has := by
      rw [Bool.eq_iff_iff, any_isBoth, any_has]
    rw [hab]
    cases hc : (!f.noOut && outCan && ins.any Data.has) with
    | true => simp
    | false =>
      have hp : ∀ i < n, ∃ x, op (argsAt (ins.map proc) i) = .plain x := by
        intro i _
        apply ht
        by_cases hd : f.noOut = true ∨ outCan = false
        · exact .inl hd
        · right
          have hno : ¬ SomeVar ins := by
            rw [← any_has]
            intro h
            simp only [not_or, Bool.not_eq_true, Bool.not_eq_false] at hd
            simp [hd.1, hd.2, h] at hc
          intro a ha
          rw [argsAt_proc] at ha
          obtain ⟨d, hd', rfl⟩ := List.mem_map.1 ha
          have : d.variances = none := by
            by_contra hne; exact hno ⟨d, hd', hne⟩
          exact ⟨d.values i, by simp [Data.elem, this]⟩
      obtain ⟨w, hw, -⟩ := writePlain_ok _ n fresh hp
      rw [hw]
      exact ⟨⟨w, none⟩, rfl⟩

theorem C96_transform_error (f : Flags) (op : List (Elem F) → Elem F) (outCan : Bool) (n : Nat) (fresh : Nat → F)
    (ins : List (Data F)) (ht : Typed (f.noOut = true ∨ outCan = false) op) (e : Err)
    (h : VarFlags.transform f op outCan n fresh ins = .error e) : e = .variances := by
  by_cases h1 : Single f (f.noInIfOutCannot && !outCan) 0 ins
  · cases hv : allOrNoneViolated f (ins.map proc) with
    | true =>
      simp only [VarFlags.transform, (collect_eq f outCan 0 ins).1 h1, bind, Except.bind, finish, hv] at h
      simp at h; exact h.symm
    | false =>
      have : ∃ r, VarFlags.transform f op outCan n fresh ins = .ok r := by
        rw [C96_transform_iff f op outCan n fresh ins ht]
        rw [allOrNone_iff] at hv
        refine ⟨⟨fun j d hj => (h1 j d hj).1, fun j d hj => (h1 j d hj).2.1, hv⟩, ?_⟩
        rintro a b ⟨d, hd, hne⟩
        obtain ⟨j, hj⟩ := List.getElem?_of_mem hd
        exact hne ((h1 j d hj).2.2 (by simp [a, b]))
      obtain ⟨r, hr⟩ := this
      rw [hr] at h; cases h
  · simp only [VarFlags.transform, (collect_eq f outCan 0 ins).2 h1, bind, Except.bind] at h
    cases h; rfl

/-- The result of an operation has variances exactly if some operand has, the operation is not one
that drops them, and the type of the output can have variances; every element is the operation
applied to the elements of the operands including their variances. -/
theorem C96_transform (f : Flags) (op : List (Elem F) → Elem F) (outCan : Bool) (n : Nat) (fresh : Nat → F)
    (ins : List (Data F)) (r : Data F) (ht : Typed (f.noOut = true ∨ outCan = false) op)
    (h : VarFlags.transform f op outCan n fresh ins = .ok r) :
    (r.variances ≠ none ↔ f.noOut = false ∧ outCan = true ∧ SomeVar ins) ∧
    Holds (fun i => op (ins.map (fun d => d.elem i))) n r := by
  have hok := (C96_transform_iff f op outCan n fresh ins ht).1 ⟨r, h⟩
  have h1 : Single f (f.noInIfOutCannot && !outCan) 0 ins := by
    intro j d hj
    refine ⟨hok.1.forbidden j d hj, hok.1.required j d hj, fun hc => ?_⟩
    simp only [Bool.and_eq_true, Bool.not_eq_true'] at hc
    by_contra hne
    exact hok.2 hc.1 hc.2 ⟨d, List.mem_of_getElem? hj, hne⟩
  have h2 := (allOrNone_iff f ins).2 hok.1.allOrNone
  simp only [VarFlags.transform, (collect_eq f outCan 0 ins).1 h1, bind, Except.bind, finish, h2] at h
  have hab : (ins.map proc).any Processed.isBoth = ins.any Data.has := by
    rw [Bool.eq_iff_iff, any_isBoth, any_has]
  rw [hab] at h
  simp only [argsAt_proc] at h
  cases hc : (!f.noOut && outCan && ins.any Data.has) with
  | true =>
    simp only [hc] at h
    simp only [Bool.false_eq_true, if_false, if_true, Except.ok.injEq] at h
    subst h
    refine ⟨?_, holds_both _ n _⟩
    simp only [Bool.and_eq_true, Bool.not_eq_true'] at hc
    simp [hc.1.1, hc.1.2, (any_has ins).1 hc.2]
  | false =>
    simp only [hc] at h
    simp only [Bool.false_eq_true, if_false] at h
    have hp : ∀ i < n, ∃ x, op (ins.map (fun d => d.elem i)) = .plain x := by
      intro i _
      apply ht
      by_cases hd : f.noOut = true ∨ outCan = false
      · exact .inl hd
      · right
        have hno : ¬ SomeVar ins := by
          rw [← any_has]
          intro h
          simp only [not_or, Bool.not_eq_true, Bool.not_eq_false] at hd
          simp [hd.1, hd.2, h] at hc
        intro a ha
        obtain ⟨d, hd', rfl⟩ := List.mem_map.1 ha
        have : d.variances = none := by
          by_contra hne; exact hno ⟨d, hd', hne⟩
        exact ⟨d.values i, by simp [Data.elem, this]⟩
    obtain ⟨w, hw, hw2, -⟩ := writePlain_ok _ n fresh hp
    rw [hw] at h
    simp only [Except.map, Except.ok.injEq] at h
    subst h
    refine ⟨?_, ?_⟩
    · constructor
      · intro h; exact absurd rfl h
      · rintro ⟨a, b, c⟩
        rw [a, b, (any_has ins).2 c] at hc
        cases hc
    · intro i hi
      simp only
      rw [hw2 i hi]

/-- Uncertainties disappear only in operations declared to drop them, or if the type of the result
cannot have variances and the operation does not insist. -/
theorem C96_never_dropped (f : Flags) (op : List (Elem F) → Elem F) (outCan : Bool) (n : Nat) (fresh : Nat → F)
    (ins : List (Data F)) (r : Data F) (ht : Typed (f.noOut = true ∨ outCan = false) op)
    (h : VarFlags.transform f op outCan n fresh ins = .ok r) (hs : SomeVar ins) (hr : r.variances = none) :
    f.noOut = true ∨ (outCan = false ∧ f.noInIfOutCannot = false) := by
  have h1 := (C96_transform f op outCan n fresh ins r ht h).1
  have h2 := ((C96_transform_iff f op outCan n fresh ins ht).1 ⟨r, h⟩).2
  cases ho : f.noOut with
  | true => exact .inl rfl
  | false =>
    right
    cases hc : outCan with
    | true => exact absurd hr (h1.2 ⟨ho, hc, hs⟩)
    | false =>
      refine ⟨rfl, ?_⟩
      cases hn : f.noInIfOutCannot with
      | false => rfl
      | true => exact absurd hs (h2 hn hc)

/-- An in-place operation runs exactly if the operands satisfy its requirements and the output can
take the variances of the inputs (or takes none by declaration). -/
theorem C96_in_place_iff (f : Flags) (op : Elem F → List (Elem F) → Elem F) (n : Nat) (out : Data F)
    (ins : List (Data F)) (ht : TypedInPlace (0 ∈ f.noArg) op) :
    (∃ r, VarFlags.transformInPlace f op n out ins = .ok r) ↔
      Accepts f 0 (out :: ins) ∧
      ((if f.inIfOut = true then (out.variances ≠ none ↔ SomeVar ins) else (SomeVar ins → out.variances ≠ none)) ∨
        0 ∈ f.noArg) := by
  have hS : Single f false 0 (out :: ins) ∧ allOrNoneViolated f ((out :: ins).map proc) = false ↔
      Accepts f 0 (out :: ins) := by
    rw [allOrNone_iff]
    exact ⟨fun ⟨h1, h2⟩ => ⟨fun j d hj => (h1 j d hj).1, fun j d hj => (h1 j d hj).2.1, h2⟩,
      fun h => ⟨fun j d hj => ⟨h.forbidden j d hj, h.required j d hj, fun hc => by cases hc⟩, h.allOrNone⟩⟩
  have hA : inPlaceAllowed f (proc out).isBoth ((ins.map proc).any Processed.isBoth) = true ↔
      ((if f.inIfOut = true then (out.variances ≠ none ↔ SomeVar ins) else (SomeVar ins → out.variances ≠ none)) ∨
        0 ∈ f.noArg) := by
    have a := proc_isBoth out
    have b := any_isBoth ins
    unfold inPlaceAllowed
    cases f.inIfOut <;> cases hx : (proc out).isBoth <;> cases hy : (ins.map proc).any Processed.isBoth <;> simp_all
  rw [← hS, ← hA]
  constructor
  · rintro ⟨r, hr⟩
    by_cases h1 : Single f false 0 (out :: ins)
    · simp only [VarFlags.transformInPlace, (collectInPlace_eq f 0 (out :: ins)).1 h1, bind, Except.bind] at hr
      rw [List.map_cons, finishInPlace] at hr
      cases hv : allOrNoneViolated f ((out :: ins).map proc) with
      | true =>
        rw [List.map_cons] at hv
        rw [if_pos hv] at hr; cases hr
      | false =>
        rw [List.map_cons] at hv
        refine ⟨⟨h1, rfl⟩, ?_⟩
        by_contra hna
        rw [if_neg (by rw [hv]; simp), if_neg hna] at hr
        cases hr
    · simp only [VarFlags.transformInPlace, (collectInPlace_eq f 0 (out :: ins)).2 h1, bind, Except.bind] at hr
      cases hr
  · rintro ⟨⟨h1, h2⟩, h3⟩
    simp only [VarFlags.transformInPlace, (collectInPlace_eq f 0 (out :: ins)).1 h1, bind, Except.bind]
    rw [List.map_cons] at h2
    rw [List.map_cons, finishInPlace, if_neg (by rw [h2]; simp), if_pos h3]
    cases hv : out.variances with
    | some s => simp [proc, hv, runInPlace]
    | none =>
      have hp : proc out = .vals out.values := by simp [proc, hv]
      rw [hp] at h3 ⊢
      have hq : ∀ i < n, ∃ x, op (.plain (out.values i)) (argsAt (ins.map proc) i) = .plain x := by
        intro i _
        apply ht
        rw [← hp, hA] at h3
        rcases h3 with h3 | h3
        · right
          intro a ha
          rw [argsAt_proc] at ha
          obtain ⟨d, hd', rfl⟩ := List.mem_map.1 ha
          have : d.variances = none := by
            by_contra hne
            have hs : SomeVar ins := ⟨d, hd', hne⟩
            split at h3
            · exact h3.2 hs hv
            · exact h3 hs hv
          exact ⟨d.values i, by simp [Data.elem, this]⟩
        · exact .inl h3
      obtain ⟨w, hw, -⟩ := writePlain_ok _ n out.values hq
      simp only [runInPlace, hw]
      exact ⟨⟨w, none⟩, rfl⟩

/-- An in-place operation neither adds nor removes the variances of the output; every element is
the operation applied to the old element and the elements of the inputs, and nothing beyond them is
written. -/
theorem C96_in_place (f : Flags) (op : Elem F → List (Elem F) → Elem F) (n : Nat) (out : Data F)
    (ins : List (Data F)) (r : Data F) (ht : TypedInPlace (0 ∈ f.noArg) op)
    (h : VarFlags.transformInPlace f op n out ins = .ok r) :
    (r.variances ≠ none ↔ out.variances ≠ none) ∧
    Holds (fun i => op (out.elem i) (ins.map (fun d => d.elem i))) n r ∧
    ∀ i, n ≤ i → r.elem i = out.elem i := by
  have hok := (C96_in_place_iff f op n out ins ht).1 ⟨r, h⟩
  have h1 : Single f false 0 (out :: ins) := fun j d hj =>
    ⟨hok.1.forbidden j d hj, hok.1.required j d hj, fun hc => by cases hc⟩
  have h2 := (allOrNone_iff f (out :: ins)).2 hok.1.allOrNone
  have hA : inPlaceAllowed f (proc out).isBoth ((ins.map proc).any Processed.isBoth) = true := by
    have a := proc_isBoth out
    have b := any_isBoth ins
    have c := hok.2
    unfold inPlaceAllowed
    cases hi : f.inIfOut <;> cases hx : (proc out).isBoth <;> cases hy : (ins.map proc).any Processed.isBoth <;>
      simp_all
  simp only [VarFlags.transformInPlace, (collectInPlace_eq f 0 (out :: ins)).1 h1, bind, Except.bind] at h
  rw [List.map_cons] at h2
  rw [List.map_cons, finishInPlace, if_neg (by rw [h2]; simp), if_pos hA] at h
  simp only [runInPlace, argsAt_proc] at h
  cases hv : out.variances with
  | some s =>
    have hp : proc out = .both out.values s := by simp [proc, hv]
    rw [hp] at h
    simp only [Except.ok.injEq] at h
    have he : ∀ i, out.elem i = .pair (out.values i) (s i) := fun i => by simp [Data.elem, hv]
    subst h
    refine ⟨by simp, ?_, ?_⟩
    · simp only [he]; exact holds_both _ n _
    · intro i hi
      have := (writeBoth_spec (fun i => op (.pair (out.values i) (s i)) (ins.map (fun d => d.elem i))) n
        (out.values, s)).2 i hi
      rw [he]
      simp only [Data.elem, Elem.pair.injEq]
      exact this
  | none =>
    have hp : proc out = .vals out.values := by simp [proc, hv]
    rw [hp] at h
    simp only at h
    have he : ∀ i, out.elem i = .plain (out.values i) := fun i => by simp [Data.elem, hv]
    have hq : ∀ i < n, ∃ x, op (.plain (out.values i)) (ins.map (fun d => d.elem i)) = .plain x := by
      intro i _
      apply ht
      rcases hok.2 with h3 | h3
      · right
        intro a ha
        obtain ⟨d, hd', rfl⟩ := List.mem_map.1 ha
        have : d.variances = none := by
          by_contra hne
          have hs : SomeVar ins := ⟨d, hd', hne⟩
          split at h3
          · exact h3.2 hs hv
          · exact h3 hs hv
        exact ⟨d.values i, by simp [Data.elem, this]⟩
      · exact .inl h3
    obtain ⟨w, hw, hw2, hw3⟩ := writePlain_ok _ n out.values hq
    rw [hw] at h
    simp only [Except.map, Except.ok.injEq] at h
    subst h
    refine ⟨by simp, ?_, ?_⟩
    · intro i hi
      simp only [he]
      rw [hw2 i hi]
    · intro i hi
      rw [he]
      simp [Data.elem, hw3 i hi]

/-- In-place operations never drop uncertainties of their inputs: if an input has variances then so
has the output, unless the operation is declared to take no variances in the output; then, if it is
declared so for all arguments, no input has variances. -/
theorem C96_in_place_never_dropped (f : Flags) (op : Elem F → List (Elem F) → Elem F) (n : Nat) (out : Data F)
    (ins : List (Data F)) (r : Data F) (ht : TypedInPlace (0 ∈ f.noArg) op)
    (h : VarFlags.transformInPlace f op n out ins = .ok r)
    (hf : 0 ∈ f.noArg → ∀ k, k < ins.length + 1 → k ∈ f.noArg) (hs : SomeVar ins) : r.variances ≠ none := by
  have hok := (C96_in_place_iff f op n out ins ht).1 ⟨r, h⟩
  refine (C96_in_place f op n out ins r ht h).1.2 ?_
  by_cases h0 : 0 ∈ f.noArg
  · exfalso
    obtain ⟨d, hd, hne⟩ := hs
    obtain ⟨j, hj⟩ := List.getElem?_of_mem hd
    have hlt : j < ins.length := (List.getElem?_eq_some_iff.1 hj).1
    exact hne (hok.1.forbidden (j + 1) d (by simpa using hj) (by simpa using hf h0 (j + 1) (by omega)))
  · rcases hok.2 with h3 | h3
    · split at h3
      · exact h3.2 hs
      · exact h3 hs
    · exact absurd h3 h0

/-- The operations of the library: only comparisons, `values`, `variances` and `stddevs` are
declared to drop uncertainties. -/
theorem C96_operations : ∀ o ∈ operations, o.flags.noOut = true →
    o.flags = comparison.flags ∨ o.flags = valuesOp.flags ∨ o.flags = variancesOp.flags := by decide

/-- Every in-place operation of the library, and every operation with an `out` argument, keeps the
uncertainties of its inputs: the output of a successful call has variances if an input has. For the
variants with `out` the arguments are shifted by one with respect to the flags, which therefore
include one more argument. -/
theorem C96_in_place_operations (o : OpInfo) (op : Elem F → List (Elem F) → Elem F) (n : Nat) (out : Data F)
    (ins : List (Data F)) (r : Data F) (ht : TypedInPlace (0 ∈ o.flags.noArg) op)
    (ho : (o ∈ inPlaceOperations ∧ ins.length + 1 = o.arity) ∨ (o ∈ outOperations ∧ ins.length = o.arity))
    (h : VarFlags.transformInPlace o.flags op n out ins = .ok r) (hs : SomeVar ins) : r.variances ≠ none := by
  refine C96_in_place_never_dropped o.flags op n out ins r ht h ?_ hs
  rcases ho with ⟨ho, hl⟩ | ⟨ho, hl⟩
  · rw [hl]
    have : ∀ o ∈ inPlaceOperations, 0 ∈ o.flags.noArg → ∀ k, k < o.arity → k ∈ o.flags.noArg := by decide
    exact this o ho
  · rw [hl]
    have : ∀ o ∈ outOperations, 0 ∈ o.flags.noArg → ∀ k, k < o.arity + 1 → k ∈ o.flags.noArg := by decide
    exact this o ho

/-- Full claim: an operation with an `out` argument gives `out` uncertainties exactly if the inputs
have some. Proved for operations flagged `expect_in_variance_if_out_variance`, as `pow`, `copy` and
the operations of `min` and `max` are, if no flag exempts the output. Missing: other operations, for
which `C96_wrong_out` shows that the claim is false. -/
theorem C96_out_partial (f : Flags) (op : Elem F → List (Elem F) → Elem F) (n : Nat) (out : Data F)
    (ins : List (Data F)) (r : Data F) (ht : TypedInPlace (0 ∈ f.noArg) op) (hi : f.inIfOut = true)
    (h0 : 0 ∉ f.noArg) (h : VarFlags.transformInPlace f op n out ins = .ok r) :
    r.variances ≠ none ↔ SomeVar ins := by
  have hok := (C96_in_place_iff f op n out ins ht).1 ⟨r, h⟩
  rw [(C96_in_place f op n out ins r ht h).1]
  rcases hok.2 with h3 | h3
  · simpa [hi] using h3
  · exact absurd h3 h0

/-- `sqrt` and other functions given an `out` with variances invent uncertainties: if the operand
has none, `out` keeps its variances and they are all set to zero. -/
theorem C96_wrong_out (op : List (Elem F) → Elem F) (n : Nat) (out x : Data F)
    (hop : ∀ v, ∃ w, op [.plain v] = .plain w) (ho : out.variances ≠ none) (hx : x.variances = none) :
    ∃ r s, transformOut mathFn.flags op n out [x] = .ok r ∧ r.variances = some s ∧
      ∀ i < n, s i = 0 ∧ op [.plain (x.values i)] = .plain (r.values i) := by
  cases hs : out.variances with
  | none => exact absurd hs ho
  | some s =>
    refine ⟨⟨(writeBoth (fun i => op [.plain (x.values i)]) n (out.values, s)).1,
      some (writeBoth (fun i => op [.plain (x.values i)]) n (out.values, s)).2⟩, _, ?_, rfl, ?_⟩
    · simp [runInPlace, transformOut, VarFlags.transformInPlace, collectInPlace, hs, hx, mathFn, finishInPlace, allOrNoneViolated,
        inPlaceAllowed, Processed.isBoth, assignUnary, argsAt, Processed.at_, bind, Except.bind, Except.map]
    · intro i hi
      have h := (writeBoth_spec (fun i => op [.plain (x.values i)]) n (out.values, s)).1 i hi
      obtain ⟨w, hw⟩ := hop (x.values i)
      rw [hw] at h
      simp only [assignBoth, Prod.mk.injEq] at h
      exact ⟨h.2, by dsimp only; rw [h.1, hw]⟩

/-- The loops specialised for particular strides visit the same elements as the general loop: the
`j`-th call is at the start plus `j` times the strides, for any strides and any number of operands. -/
theorem C96_strides (inPlace : Bool) (indices strides : List Int) (n j : Nat) (hl : indices.length = strides.length) :
    (dispatchInnerLoop inPlace indices strides n)[j]? =
      if j < n then some (List.zipWith (fun i s => i + (j : Int) * s) indices strides) else none := by
  rw [dispatchInnerLoop, dispatch_eq, innerLoop_get strides n indices j hl]

/-! ### Concrete cases -/

/-- An addition of elements with error propagation. -/
private def addElem : List (Elem Int) → Elem Int
  | [.plain a, .plain b] => .plain (a + b)
  | [.pair a s, .plain b] => .pair (a + b) s
  | [.plain a, .pair b t] => .pair (a + b) t
  | [.pair a s, .pair b t] => .pair (a + b) (s + t)
  | _ => .plain 0

private theorem addElem_typed : Typed (F := Int) (({} : Flags).noOut = true ∨ true = false) addElem := by
  intro args h
  rcases h with h | h
  · simp at h
  · match args with
    | [] => exact ⟨_, rfl⟩
    | [a] => cases a <;> exact ⟨_, rfl⟩
    | [a, b] =>
      obtain ⟨x, rfl⟩ := h a (by simp)
      obtain ⟨y, rfl⟩ := h b (by simp)
      exact ⟨_, rfl⟩
    | a :: b :: c :: l => cases a <;> cases b <;> exact ⟨_, rfl⟩

private def noVar (x : Int) : Data Int := ⟨fun i => x + i, none⟩
private def withVar (x s : Int) : Data Int := ⟨fun i => x + i, some (fun _ => s)⟩

/-- Adding data with and without variances. -/
example : ∃ r, VarFlags.transform add.flags addElem true 3 (fun _ => 0) [withVar 1 4, noVar 10] = .ok r ∧
    r.elem 2 = .pair 15 4 := ⟨_, rfl, rfl⟩
example : ∃ r, VarFlags.transform add.flags addElem true 3 (fun _ => 0) [withVar 1 4, noVar 10] = .ok r ∧
    r.variances ≠ none :=
  ⟨_, rfl, by simp⟩
/-- Floor division refuses variances. -/
example : ((VarFlags.transform floorDivide.flags addElem true 3 (fun _ => 0) [noVar 1, withVar 10 1]).map
    (fun r => r.elem 0)) = .error .variances := rfl
/-- `pow` refuses variances in the exponent only. -/
example : ((VarFlags.transform VarFlags.pow.flags addElem true 3 (fun _ => 0) [withVar 1 2, noVar 10]).map
    (fun r => r.elem 0)) = .ok (.pair 11 2) := rfl
/-- A product giving a type without variances refuses variances. -/
example : ((VarFlags.transform multiply.flags (fun _ => .plain 0) false 3 (fun _ => 0) [noVar 1, withVar 10 1]).map
    (fun r : Data Int => r.elem 0)) = .error .variances := rfl
/-- A comparison drops them. -/
example : ((VarFlags.transform comparison.flags (fun _ => .plain 1) false 3 (fun _ => 0) [noVar 1, withVar 10 1]).map
    (fun r : Data Int => r.elem 0)) = .ok (.plain 1) := rfl
/-- `nan_to_num` refuses a replacement without variances for data with variances. -/
example : ((VarFlags.transform replaceSpecial.flags addElem true 3 (fun _ => 0) [withVar 1 1, noVar 0]).map
    (fun r => r.elem 0)) = .error .variances := rfl
/-- In-place addition of data with variances to data without is refused. -/
example : ((VarFlags.transformInPlace addEquals.flags (fun a l => addElem (a :: l)) 2 (noVar 1) [withVar 1 1]).map
    (fun r => r.elem 0)) = .error .variances := rfl
example : ((VarFlags.transformInPlace addEquals.flags (fun a l => addElem (a :: l)) 2 (withVar 1 5) [withVar 1 1]).map
    (fun r => (r.elem 1, r.elem 2))) = .ok (.pair 4 6, .pair 3 5) := rfl
example : SomeVar [noVar 1, withVar 10 1] := ⟨withVar 10 1, by simp, by simp [withVar]⟩
example : TypedInPlace (F := Int) False (fun a l => addElem (a :: l)) := by
  intro x args h
  rcases h with h | h
  · exact h.elim
  · match args with
    | [] => exact ⟨_, rfl⟩
    | [a] => obtain ⟨y, rfl⟩ := h a (by simp); exact ⟨_, rfl⟩
    | a :: b :: l => cases a <;> exact ⟨_, rfl⟩
/-- `max_equals`: output and input must agree. -/
example : ((VarFlags.transformInPlace maxEquals.flags (fun a l => addElem (a :: l)) 2 (withVar 1 5) [noVar 1]).map
    (fun r => r.elem 1)) = .error .variances := rfl
/-- `floor(x, out=…)` refuses `x` with variances. -/
example : ((transformOut rounding.flags (fun l => l.headD (.plain 0)) 2 (noVar 1) [withVar 1 1]).map
    (fun r => r.elem 0)) = .error .variances := rfl
/-- If `erf` had a variant with `out`, its flags would let variances through to an output without. -/
example : ((transformOut erf.flags (fun _ => .plain 7) 2 (noVar 1) [withVar 1 1]).map
    (fun r => r.elem 0)) = .ok (.plain 7) := rfl
/-- `sqrt(x, out=…)` with variances in `out` only. -/
example : ((transformOut mathFn.flags (fun l => l.headD (.plain 0)) 2 (withVar 1 5) [noVar 9]).map
    (fun r => r.elem 1)) = .ok (.pair 10 0) := rfl
example : dispatchInnerLoop false [0, 5, 7] [1, 0, 1] 3 = [[0, 5, 7], [1, 5, 8], [2, 5, 9]] := by decide
example : dispatchInnerLoop true [4] [-2] 3 = [[4], [2], [0]] := by decide
example : ∃ r, VarFlags.transform add.flags addElem true 3 (fun _ => 0) [noVar 1, noVar 10] = .ok r :=
  (C96_transform_iff add.flags addElem true 3 (fun _ => 0) [noVar 1, noVar 10] addElem_typed).2
    ⟨⟨fun j d _ h => absurd h (by simp [add]), fun j d _ h => absurd h (by simp [add]), fun h => by simp [add] at h⟩,
      fun h => by simp [add] at h⟩

/-- Which operands with variances the functions accept: none in `midpoint` and in the edges and weights of `map`, any in comparisons, whose result has
no variances, and in `values`; `variances` needs one. -/
theorem C96_functions (op : List (Elem F) → Elem F) (outCan : Bool) (n : Nat) (fresh : Nat → F) (a b c d : Data F) (ht : Typed True op) :
    ((∃ r, VarFlags.transform midpoint.flags op outCan n fresh [a, b] = .ok r) ↔ a.variances = none ∧ b.variances = none) ∧
    (∃ r, VarFlags.transform comparison.flags op outCan n fresh [a, b] = .ok r ∧ r.variances = none) ∧
    (∃ r, VarFlags.transform valuesOp.flags op outCan n fresh [a] = .ok r ∧ r.variances = none) ∧
    ((∃ r, VarFlags.transform variancesOp.flags op outCan n fresh [a] = .ok r ∧ r.variances = none) ↔ a.variances ≠ none) ∧
    ((∃ r, VarFlags.transform mapOp.flags op outCan n fresh [a, b, c, d] = .ok r) ↔ a.variances = none ∧ b.variances = none) := by
  have ht' : ∀ P, Typed P op := fun P args _ => ht args (.inl trivial)
  have hok : ∀ (f : Flags) (ins : List (Data F)), f.noOut = true → f.noInIfOutCannot = false →
      ((∃ r, VarFlags.transform f op outCan n fresh ins = .ok r ∧ r.variances = none) ↔ Accepts f 0 ins) := by
    intro f ins hf hn
    have hi := C96_transform_iff f op outCan n fresh ins (ht' _)
    constructor
    · rintro ⟨r, hr, -⟩
      exact (hi.1 ⟨r, hr⟩).1
    · intro hacc
      obtain ⟨r, hr⟩ := hi.2 ⟨hacc, fun h => by simp [hn] at h⟩
      refine ⟨r, hr, ?_⟩
      have := (C96_transform f op outCan n fresh ins r (ht' _) hr).1
      by_contra hv
      simp [hf] at this
      exact hv this
  refine ⟨?_, ?_, ?_, ?_, ?_⟩
  · rw [C96_transform_iff _ _ _ _ _ _ (ht' _)]
    constructor
    · rintro ⟨h, -⟩
      exact ⟨h.forbidden 0 a rfl (by simp [midpoint]), h.forbidden 1 b rfl (by simp [midpoint])⟩
    · rintro ⟨ha, hb⟩
      refine ⟨⟨?_, fun j d _ h => by simp [midpoint] at h, fun h => by simp [midpoint] at h⟩, fun h => by simp [midpoint] at h⟩
      intro j x hj _
      match j, hj with
      | 0, hj => cases hj; exact ha
      | 1, hj => cases hj; exact hb
  · exact (hok _ _ rfl rfl).2 ⟨fun j d _ h => by simp [comparison] at h, fun j d _ h => by simp [comparison] at h, fun h => by simp [comparison] at h⟩
  · exact (hok _ _ rfl rfl).2 ⟨fun j d _ h => by simp [valuesOp] at h, fun j d _ h => by simp [valuesOp] at h, fun h => by simp [valuesOp] at h⟩
  · rw [hok _ _ rfl rfl]
    constructor
    · exact fun h => h.required 0 a rfl (by simp [variancesOp])
    · intro ha
      refine ⟨fun j d _ h => by simp [variancesOp] at h, ?_, fun h => by simp [variancesOp] at h⟩
      intro j x hj _
      match j, hj with
      | 0, hj => cases hj; exact ha
  · rw [C96_transform_iff _ _ _ _ _ _ (ht' _)]
    constructor
    · rintro ⟨h, -⟩
      exact ⟨h.forbidden 0 a rfl (by simp [mapOp]), h.forbidden 1 b rfl (by simp [mapOp])⟩
    · rintro ⟨ha, hb⟩
      refine ⟨⟨?_, fun j d _ h => by simp [mapOp] at h, fun h => by simp [mapOp] at h⟩, fun h => by simp [mapOp] at h⟩
      intro j x hj hm
      match j, hj with
      | 0, hj => cases hj; exact ha
      | 1, hj => cases hj; exact hb
      | (k + 2), _ => simp [mapOp] at hm

/-- `pow` and `nan_to_num` with an `out` argument neither drop nor invent variances: the output has variances if and only if the base (the operand) has, and
the exponent has none. -/
theorem C96_out_functions (op : Elem F → List (Elem F) → Elem F) (n : Nat) (out a b : Data F) (ht : TypedInPlace False op) :
    ((∃ r, VarFlags.transformInPlace powInPlace.flags op n out [a, b] = .ok r) ↔
      (out.variances ≠ none ↔ a.variances ≠ none) ∧ b.variances = none) ∧
    ((∃ r, VarFlags.transformInPlace replaceSpecialOut.flags op n out [a, b] = .ok r) ↔
      (out.variances ≠ none ↔ a.variances ≠ none) ∧ (out.variances ≠ none ↔ b.variances ≠ none)) := by
  have hp : ¬ (0 ∈ powInPlace.flags.noArg) := by simp [powInPlace]
  have hr : ¬ (0 ∈ replaceSpecialOut.flags.noArg) := by simp [replaceSpecialOut]
  constructor
  · rw [C96_in_place_iff _ _ _ _ _ (by intro x args h; exact ht x args (.inr (h.resolve_left hp)))]
    constructor
    · rintro ⟨h, h2⟩
      have hb := h.forbidden 2 b rfl (by simp [powInPlace])
      refine ⟨?_, hb⟩
      have h2 := h2.resolve_right hp
      rw [if_pos (by rfl)] at h2
      rw [h2]
      simp [SomeVar, hb]
    · rintro ⟨h, hb⟩
      refine ⟨⟨?_, fun j d _ h => by simp [powInPlace] at h, fun h => by simp [powInPlace] at h⟩, .inl ?_⟩
      · intro j x hj hm
        match j, hj with
        | 0, _ => simp [powInPlace] at hm
        | 1, _ => simp [powInPlace] at hm
        | 2, hj => cases hj; exact hb
      · rw [if_pos (by rfl), h]
        simp [SomeVar, hb]
  · rw [C96_in_place_iff _ _ _ _ _ (by intro x args h; exact ht x args (.inr (h.resolve_left hr)))]
    constructor
    · rintro ⟨h, -⟩
      rcases h.allOrNone rfl with h | h
      · have h1 := h out (by simp); have h2 := h a (by simp); have h3 := h b (by simp)
        simp [h1, h2, h3]
      · have h1 := h out (by simp); have h2 := h a (by simp); have h3 := h b (by simp)
        exact ⟨⟨fun _ => h2, fun _ => h1⟩, ⟨fun _ => h3, fun _ => h1⟩⟩
    · rintro ⟨h1, h2⟩
      refine ⟨⟨fun j d _ h => by simp [replaceSpecialOut] at h, fun j d _ h => by simp [replaceSpecialOut] at h, fun _ => ?_⟩, .inl ?_⟩
      · by_cases ho : out.variances = none
        · left
          have ha : a.variances = none := by
            by_contra hx; exact h1.2 hx ho
          have hb : b.variances = none := by
            by_contra hx; exact h2.2 hx ho
          intro d hd
          simp at hd
          rcases hd with rfl | rfl | rfl <;> assumption
        · right
          intro d hd
          simp at hd
          rcases hd with rfl | rfl | rfl
          · exact ho
          · exact h1.1 ho
          · exact h2.1 ho
      · rw [if_neg (by simp [replaceSpecialOut])]
        rintro ⟨d, hd, hv⟩
        simp at hd
        rcases hd with rfl | rfl
        · exact h1.2 hv
        · exact h2.2 hv

example : (∃ r, VarFlags.transform variancesOp.flags (fun _ => .plain 3) true 2 (fun _ => 0) [withVar 1 4] = .ok r ∧ r.variances = none) ∧
    ¬ ∃ r, VarFlags.transform midpoint.flags (fun _ => .plain 3) true 2 (fun _ => 0) [noVar 1, withVar 1 4] = .ok r :=
  ⟨((C96_functions (fun _ => .plain 3) true 2 (fun _ => 0) (withVar 1 4) (noVar 1) (noVar 1) (noVar 1) (fun _ _ => ⟨_, rfl⟩)).2.2.2.1).2 (by simp [withVar]),
    fun h => by
      have := ((C96_functions (fun _ => .plain 3) true 2 (fun _ => 0) (noVar 1) (withVar 1 4) (noVar 1) (noVar 1) (fun _ _ => ⟨_, rfl⟩)).1).1 h
      simp [withVar] at this⟩

end Scipp.Props
