import Verif.Model.Construct
import Verif.Props.SizesOps
import Mathlib.Data.List.Basic
import Mathlib.Data.List.Nodup
import Mathlib.Data.List.Perm.Basic
/-
**C74**: construction of variables.
-/
namespace Scipp.Props
open Construct
variable {U V : Type}

/-- The kind of an argument. -/
def argKind : Arg U V → Nat
  | .unit _ => 0
  | .dimensions _ => 1
  | .dims _ => 2
  | .shape _ => 3
  | .values _ => 4
  | .variances _ => 5

/-- Picks the argument of one kind. -/
def asUnit : Arg U V → Option U | .unit u => some u | _ => none
@[inherit_doc asUnit] def asDimensions : Arg U V → Option Dims | .dimensions d => some d | _ => none
@[inherit_doc asUnit] def asLabels : Arg U V → Option (List Dim) | .dims l => some l | _ => none
@[inherit_doc asUnit] def asShape : Arg U V → Option (List Int) | .shape s => some s | _ => none
@[inherit_doc asUnit] def asValues : Arg U V → Option (Option (List V)) | .values v => some v | _ => none
@[inherit_doc asUnit] def asVariances : Arg U V → Option (Option (List V)) | .variances v => some v | _ => none

/-- Arguments that make sense: every kind at most once, dimensions given in one way, and labels given if and only if a shape is (an empty list
counts as not given). -/
structure Consistent (args : List (Arg U V)) : Prop where
  once : (args.map argKind).Nodup
  oneWay : ∀ d, .dimensions d ∈ args → ∀ a ∈ args, argKind a ≠ 2 ∧ argKind a ≠ 3
  both : (args.findSome? asLabels).getD [] = [] ↔ (args.findSome? asShape).getD [] = []

/-- The arguments that have to do with dimensions. -/
private def aboutDims (a : Arg U V) : Bool := argKind a == 1 || argKind a == 2 || argKind a == 3

private def withRest (u : Option U) (v : Option (List V)) (w : Option (Option (List V))) (p : Parser U V) : Parser U V :=
  { p with unit := u, values := v, variances := w }

private theorem parse_withRest (a : Arg U V) (ha : aboutDims a = true) (p : Parser U V) (u v w) :
    parse (withRest u v w p) a = (parse p a).map (withRest u v w) := by
  cases a with
  | unit u => simp [aboutDims, argKind] at ha
  | values u => simp [aboutDims, argKind] at ha
  | variances u => simp [aboutDims, argKind] at ha
  | dimensions d => rfl
  | dims l =>
    obtain ⟨pu, pd, pv, pw, pl, ps⟩ := p
    cases ps with
    | nil => rfl
    | cons x ps =>
      simp only [parse, parseDims, withRest, List.isEmpty_cons, Bool.false_eq_true, if_false]
      cases Dims.ofLabels l (x :: ps) <;> rfl
  | shape l =>
    obtain ⟨pu, pd, pv, pw, pl, ps⟩ := p
    cases pl with
    | nil => rfl
    | cons x pl =>
      simp only [parse, parseShape, withRest, List.isEmpty_cons, Bool.false_eq_true, if_false]
      cases Dims.ofLabels (x :: pl) l <;> rfl

private theorem parseAll_withRest (l : List (Arg U V)) : (∀ a ∈ l, aboutDims a = true) → ∀ (p : Parser U V) (u v w),
    parseAll l (withRest u v w p) = (parseAll l p).map (withRest u v w) := by
  induction l with
  | nil => intro _ p u v w; rfl
  | cons a l ih =>
    intro h p u v w
    simp only [parseAll]
    rw [parse_withRest a (h a (by simp))]
    cases parse p a with
    | error e => rfl
    | ok q => exact ih (fun a ha => h a (by simp [ha])) q u v w

private theorem find_none {α : Type} {args : List (Arg U V)} {f : Arg U V → Option α} {k : Nat} (hf : ∀ a, argKind a ≠ k → f a = none)
    (h : k ∉ args.map argKind) : args.findSome? f = none := by
  rw [List.findSome?_eq_none_iff]
  intro a ha
  exact hf a (fun hk => h (hk ▸ List.mem_map_of_mem (f := argKind) ha))

private theorem key (args : List (Arg U V)) : (args.map argKind).Nodup → ∀ p : Parser U V,
    parseAll args p = (parseAll (args.filter aboutDims) p).map
      (withRest ((args.findSome? asUnit).or p.unit) ((args.findSome? asValues).getD p.values) ((args.findSome? asVariances).or p.variances)) := by
  induction args with
  | nil => intro _ p; rfl
  | cons a args ih =>
    intro hn p
    rw [List.map_cons, List.nodup_cons] at hn
    have ih := ih hn.2
    have hrest : ∀ b ∈ args.filter aboutDims, aboutDims b = true := fun b hb => (List.mem_filter.1 hb).2
    have about : ∀ b, a = b → aboutDims b = true → asUnit b = none → asValues b = none → asVariances b = none →
        (∀ q, parse p b = .ok q → q.unit = p.unit ∧ q.values = p.values ∧ q.variances = p.variances) →
        parseAll (a :: args) p = (parseAll ((a :: args).filter aboutDims) p).map
      (withRest (((a :: args).findSome? asUnit).or p.unit) (((a :: args).findSome? asValues).getD p.values) (((a :: args).findSome? asVariances).or p.variances)) := by
      intro b hb h1 h2 h3 h4 h5
      subst hb
      rw [List.filter_cons_of_pos h1]
      simp only [parseAll, List.findSome?_cons, h2, h3, h4]
      cases hq : parse p a with
      | error e => rfl
      | ok q =>
        obtain ⟨q1, q2, q3⟩ := h5 q hq
        simp only []
        rw [ih q, q1, q2, q3]
    cases a with
    | dimensions d => exact about _ rfl rfl rfl rfl rfl (by intro q hq; cases hq; exact ⟨rfl, rfl, rfl⟩)
    | dims l =>
      refine about _ rfl rfl rfl rfl rfl ?_
      intro q hq
      simp only [parse, parseDims] at hq
      split at hq
      · cases hq; exact ⟨rfl, rfl, rfl⟩
      · split at hq
        · cases hq
        · cases hq; exact ⟨rfl, rfl, rfl⟩
    | shape l =>
      refine about _ rfl rfl rfl rfl rfl ?_
      intro q hq
      simp only [parse, parseShape] at hq
      split at hq
      · cases hq; exact ⟨rfl, rfl, rfl⟩
      · split at hq
        · cases hq
        · cases hq; exact ⟨rfl, rfl, rfl⟩
    | unit u =>
      have h0 : args.findSome? asUnit = none := find_none (k := 0) (by intro b hb; cases b <;> simp_all [argKind, asUnit]) hn.1
      rw [List.filter_cons_of_neg (by simp [aboutDims, argKind])]
      simp only [parseAll, parse, List.findSome?_cons, asUnit, asValues, asVariances]
      rw [ih]
      have : ({ p with unit := some u } : Parser U V) = withRest (some u) p.values p.variances p := rfl
      rw [this, parseAll_withRest _ hrest, h0]
      cases parseAll (args.filter aboutDims) p <;> rfl
    | values v =>
      have h0 : args.findSome? asValues = none := find_none (k := 4) (by intro b hb; cases b <;> simp_all [argKind, asValues]) hn.1
      rw [List.filter_cons_of_neg (by simp [aboutDims, argKind])]
      simp only [parseAll, parse, List.findSome?_cons, asUnit, asValues, asVariances]
      rw [ih]
      have : ({ p with values := v } : Parser U V) = withRest p.unit v p.variances p := rfl
      rw [this, parseAll_withRest _ hrest, h0]
      cases parseAll (args.filter aboutDims) p <;> rfl
    | variances v =>
      have h0 : args.findSome? asVariances = none := find_none (k := 5) (by intro b hb; cases b <;> simp_all [argKind, asVariances]) hn.1
      rw [List.filter_cons_of_neg (by simp [aboutDims, argKind])]
      simp only [parseAll, parse, List.findSome?_cons, asUnit, asValues, asVariances]
      rw [ih]
      have : ({ p with variances := some v } : Parser U V) = withRest p.unit p.values (some v) p := rfl
      rw [this, parseAll_withRest _ hrest, h0]
      cases parseAll (args.filter aboutDims) p <;> rfl

private theorem find_filter {α : Type} {f : Arg U V → Option α} (hf : ∀ a, aboutDims a = false → f a = none) (args : List (Arg U V)) :
    (args.filter aboutDims).findSome? f = args.findSome? f := by
  induction args with
  | nil => rfl
  | cons a args ih =>
    by_cases h : aboutDims a = true
    · rw [List.filter_cons_of_pos h, List.findSome?_cons, List.findSome?_cons, ih]
    · rw [List.filter_cons_of_neg h, List.findSome?_cons, hf a (by simpa using h), ih]

/-- The dimensions the arguments ask for. -/
def askedDims (args : List (Arg U V)) : Except Err Dims :=
  match args.findSome? asDimensions with
  | some d => .ok d
  | none => Dims.ofLabels ((args.findSome? asLabels).getD []) ((args.findSome? asShape).getD [])

private theorem ofLabels_nil : Dims.ofLabels [] [] = .ok [] := rfl

private theorem dims_part (l : List (Arg U V)) (ha : ∀ a ∈ l, aboutDims a = true) (hc : Consistent l) :
    (parseAll l {}).map Parser.dimensions = askedDims l := by
  obtain ⟨h1, h2, h3⟩ := hc
  match l with
  | [] => rfl
  | [a] =>
    cases a with
    | dimensions d => rfl
    | dims s =>
      simp only [List.findSome?_cons, asLabels, asShape, List.findSome?_nil, Option.getD_some, Option.getD_none, iff_true] at h3
      subst h3; rfl
    | shape s =>
      simp only [List.findSome?_cons, asLabels, asShape, List.findSome?_nil, Option.getD_some, Option.getD_none, true_iff] at h3
      subst h3; rfl
    | unit u => exact absurd (ha (.unit u) (by simp)) (by simp [aboutDims, argKind])
    | values u => exact absurd (ha (.values u) (by simp)) (by simp [aboutDims, argKind])
    | variances u => exact absurd (ha (.variances u) (by simp)) (by simp [aboutDims, argKind])
  | a :: b :: rest =>
    have hrest : rest = [] := by
      cases rest with
      | nil => rfl
      | cons c rest =>
        exfalso
        have ka := ha a (by simp)
        have kb := ha b (by simp)
        have kc := ha c (by simp)
        simp only [aboutDims, Bool.or_eq_true, beq_iff_eq] at ka kb kc
        simp only [List.map_cons, List.nodup_cons, List.mem_cons, not_or] at h1
        have two : ∀ x y : Arg U V, x ∈ a :: b :: c :: rest → y ∈ a :: b :: c :: rest → argKind x = 1 → argKind y ≠ 2 ∧ argKind y ≠ 3 := by
          intro x y hx hy hk
          cases x with
          | dimensions d => exact h2 d hx y hy
          | _ => simp [argKind] at hk
        have t1 := two a b (by simp) (by simp)
        have t2 := two a c (by simp) (by simp)
        have t3 := two b c (by simp) (by simp)
        have t4 := two b a (by simp) (by simp)
        have t5 := two c a (by simp) (by simp)
        have t6 := two c b (by simp) (by simp)
        omega
    subst hrest
    have ka := ha a (by simp)
    have kb := ha b (by simp)
    cases a with
    | unit u => simp [aboutDims, argKind] at ka
    | values u => simp [aboutDims, argKind] at ka
    | variances u => simp [aboutDims, argKind] at ka
    | dimensions d =>
      have := h2 d (by simp) b (by simp)
      have hk : argKind (.dimensions d : Arg U V) = 1 := rfl
      simp only [List.map_cons, List.nodup_cons, List.mem_cons, not_or, hk] at h1
      simp only [aboutDims, Bool.or_eq_true, beq_iff_eq] at kb
      omega
    | dims s =>
      cases b with
      | unit u => simp [aboutDims, argKind] at kb
      | values u => simp [aboutDims, argKind] at kb
      | variances u => simp [aboutDims, argKind] at kb
      | dimensions d => have := h2 d (by simp) (.dims s) (by simp); simp [argKind] at this
      | dims s' => simp [argKind] at h1
      | shape t =>
        simp only [List.findSome?_cons, asLabels, asShape, Option.getD_some] at h3
        simp only [parseAll, parse, parseDims, parseShape, askedDims, List.findSome?_cons, asDimensions, asLabels, asShape, List.findSome?_nil, Option.getD_some,
          List.isEmpty_nil, if_true]
        cases s with
        | nil => rw [h3.1 rfl]; rfl
        | cons x s =>
          simp only [List.isEmpty_cons, Bool.false_eq_true, if_false]
          cases Dims.ofLabels (x :: s) t <;> rfl
    | shape s =>
      cases b with
      | unit u => simp [aboutDims, argKind] at kb
      | values u => simp [aboutDims, argKind] at kb
      | variances u => simp [aboutDims, argKind] at kb
      | dimensions d => have := h2 d (by simp) (.shape s) (by simp); simp [argKind] at this
      | shape s' => simp [argKind] at h1
      | dims t =>
        simp only [List.findSome?_cons, asLabels, asShape, Option.getD_some] at h3
        simp only [parseAll, parse, parseDims, parseShape, askedDims, List.findSome?_cons, asDimensions, asLabels, asShape, List.findSome?_nil, Option.getD_some,
          List.isEmpty_nil, if_true]
        cases s with
        | nil => rw [h3.2 rfl]; rfl
        | cons x s =>
          simp only [List.isEmpty_cons, Bool.false_eq_true, if_false]
          cases Dims.ofLabels t (x :: s) <;> rfl

private theorem consistent_filter {args : List (Arg U V)} (h : Consistent args) : Consistent (args.filter aboutDims) := by
  refine ⟨List.Nodup.sublist (List.Sublist.map _ List.filter_sublist) h.once, ?_, ?_⟩
  · intro d hd a ha
    exact h.oneWay d (List.mem_filter.1 hd).1 a (List.mem_filter.1 ha).1
  · rw [find_filter (by intro a; cases a <;> simp [aboutDims, argKind, asLabels]),
      find_filter (by intro a; cases a <;> simp [aboutDims, argKind, asShape])]
    exact h.both

/-- A successful or failed request for a variable, by what is asked for. -/
def requested (T : Elem U V) (args : List (Arg U V)) (dims : Dims) : Except Err (Made U V) :=
  construct T ⟨args.findSome? asUnit, dims, (args.findSome? asValues).getD none, args.findSome? asVariances, [], []⟩

private theorem makeVariable_eq (T : Elem U V) (args : List (Arg U V)) (h : Consistent args) :
    makeVariable T args = (askedDims args).bind (requested T args) := by
  have h1 := key args h.once {}
  have h2 := dims_part (args.filter aboutDims) (fun a ha => (List.mem_filter.1 ha).2) (consistent_filter h)
  have h3 : askedDims (args.filter aboutDims) = askedDims args := by
    simp only [askedDims]
    rw [find_filter (by intro a; cases a <;> simp [aboutDims, argKind, asLabels] <;> rfl),
      find_filter (by intro a; cases a <;> simp [aboutDims, argKind, asShape] <;> rfl),
      find_filter (by intro a; cases a <;> simp [aboutDims, argKind, asDimensions] <;> rfl)]
  rw [h3] at h2
  simp only [makeVariable, h1]
  cases hp : parseAll (args.filter aboutDims) ({} : Parser U V) with
  | error e => rw [hp] at h2; rw [← h2]; rfl
  | ok q =>
    rw [hp] at h2
    rw [← h2]
    simp only [Except.map, Except.bind, requested, construct, withRest, Option.or_none]

private theorem find_iff {α : Type} {args : List (Arg U V)} {f : Arg U V → Option α} {k : Nat} (hn : (args.map argKind).Nodup)
    (hf : ∀ a, argKind a ≠ k → f a = none) (x : α) : args.findSome? f = some x ↔ ∃ a ∈ args, f a = some x := by
  constructor
  · intro h
    obtain ⟨a, ha, hx⟩ := List.exists_of_findSome?_eq_some h
    exact ⟨a, ha, hx⟩
  · rintro ⟨a, ha, hx⟩
    cases hs : args.findSome? f with
    | none =>
      rw [List.findSome?_eq_none_iff] at hs
      rw [hs a ha] at hx; cases hx
    | some y =>
      obtain ⟨b, hb, hy⟩ := List.exists_of_findSome?_eq_some hs
      have e1 : argKind a = k := by by_contra hc; rw [hf a hc] at hx; cases hx
      have e2 : argKind b = k := by by_contra hc; rw [hf b hc] at hy; cases hy
      have : a = b := List.inj_on_of_nodup_map hn ha hb (e1.trans e2.symm)
      rw [← this, hx] at hy
      rw [hy]

private theorem find_perm {α : Type} {args args' : List (Arg U V)} {f : Arg U V → Option α} {k : Nat} (hp : args.Perm args')
    (hn : (args.map argKind).Nodup) (hf : ∀ a, argKind a ≠ k → f a = none) : args.findSome? f = args'.findSome? f := by
  have hn' : (args'.map argKind).Nodup := (hp.map argKind).nodup_iff.1 hn
  apply Option.ext
  intro x
  rw [find_iff hn hf x, find_iff hn' hf x]
  constructor
  · rintro ⟨a, ha, hx⟩; exact ⟨a, hp.mem_iff.1 ha, hx⟩
  · rintro ⟨a, ha, hx⟩; exact ⟨a, hp.mem_iff.2 ha, hx⟩

/-- **C74** (order): consistent arguments may be given in any order. -/
theorem C74_order_partial (T : Elem U V) (args args' : List (Arg U V)) (h : Consistent args) (hp : args.Perm args') :
    makeVariable T args = makeVariable T args' := by
  have e1 : args.findSome? asUnit = args'.findSome? asUnit := find_perm (k := 0) hp h.once (by intro b hb; cases b <;> simp_all [argKind, asUnit])
  have e2 : args.findSome? asDimensions = args'.findSome? asDimensions := find_perm (k := 1) hp h.once (by intro b hb; cases b <;> simp_all [argKind, asDimensions])
  have e3 : args.findSome? asLabels = args'.findSome? asLabels := find_perm (k := 2) hp h.once (by intro b hb; cases b <;> simp_all [argKind, asLabels])
  have e4 : args.findSome? asShape = args'.findSome? asShape := find_perm (k := 3) hp h.once (by intro b hb; cases b <;> simp_all [argKind, asShape])
  have e5 : args.findSome? asValues = args'.findSome? asValues := find_perm (k := 4) hp h.once (by intro b hb; cases b <;> simp_all [argKind, asValues])
  have e6 : args.findSome? asVariances = args'.findSome? asVariances := find_perm (k := 5) hp h.once (by intro b hb; cases b <;> simp_all [argKind, asVariances])
  have h' : Consistent args' := by
    refine ⟨(hp.map argKind).nodup_iff.1 h.once, ?_, by rw [← e3, ← e4]; exact h.both⟩
    intro d hd a ha
    exact h.oneWay d (hp.mem_iff.2 hd) a (hp.mem_iff.2 ha)
  rw [makeVariable_eq T args h, makeVariable_eq T args' h']
  simp only [askedDims, e2, e3, e4]
  congr 1
  funext d
  simp only [requested, e1, e5, e6]

/-- `makeVariable<double>(Dims{x}, Shape{2}, Values{5, 7})` and the same arguments in another order. -/
example : Consistent ([.dims [1], .shape [2], .values (some [5, 7])] : List (Arg Nat Int)) ∧
    makeVariable ⟨true, 0, 9⟩ ([.dims [1], .shape [2], .values (some [5, 7])] : List (Arg Nat Int)) = .ok ⟨[(1, 2)], 9, [5, 7], none⟩ ∧
    makeVariable ⟨true, 0, 9⟩ ([.values (some [5, 7]), .shape [2], .dims [1]] : List (Arg Nat Int)) = .ok ⟨[(1, 2)], 9, [5, 7], none⟩ :=
  ⟨⟨by decide, by simp, by decide⟩, rfl, rfl⟩

/-- **C74** (wrong): if a shape is empty and labels are given, or the other way round, the order matters: labels before an empty shape, and a shape before
empty labels, are an error, but the other orders give a scalar. -/
theorem C74_wrong_order (T : Elem U V) (l : Dim) (ls : List Dim) (n : Int) (ns : List Int) :
    makeVariable T [.dims (l :: ls), .shape []] = .error .dimension ∧
    makeVariable T [.shape [], .dims (l :: ls)] = .ok ⟨[], T.unit, [T.zero], none⟩ ∧
    makeVariable T [.shape (n :: ns), .dims []] = .error .dimension ∧
    makeVariable T [.dims [], .shape (n :: ns)] = .ok ⟨[], T.unit, [T.zero], none⟩ :=
  ⟨rfl, rfl, rfl, rfl⟩

/-- Instance: three labels, no shape. -/
example : makeVariable (⟨true, 0, 9⟩ : Elem Nat Int) [.shape [], .dims [1, 2, 3]] = .ok ⟨[], 9, [0], none⟩ := rfl

private theorem askedDims_ok {args : List (Arg U V)} {dims : Dims} (h : askedDims args = .ok dims) :
    .dimensions dims ∈ args ∨ Dims.ofLabels ((args.findSome? asLabels).getD []) ((args.findSome? asShape).getD []) = .ok dims := by
  unfold askedDims at h
  split at h
  · rename_i d hd
    injection h with h
    subst h
    left
    obtain ⟨a, ha, hx⟩ := List.exists_of_findSome?_eq_some hd
    cases a with
    | dimensions d' => simp only [asDimensions, Option.some.injEq] at hx; rw [← hx]; exact ha
    | unit u => cases hx
    | dims u => cases hx
    | shape u => cases hx
    | values u => cases hx
    | variances u => cases hx
  · exact .inr h

/-- The elements asked for: those given, or the default value everywhere. -/
def filled (dims : Dims) (zero : V) : Option (List V) → List V
  | some v => v
  | none => List.replicate (Dims.volume dims).toNat zero

/-- **C74** (content): for consistent arguments a variable is made exactly if the dimensions are, the number of values, if given, is the volume, and
variances are given only for an element type that can have them. It has the dimensions, values, variances and unit asked for, arrays that are not given
being filled with the default value, and the default unit of the element type if none is given. -/
theorem C74_content (T : Elem U V) (args : List (Arg U V)) (h : Consistent args) (r : Made U V)
    (hd : ∀ dims, .dimensions dims ∈ args → Sizes.WF dims) :
    makeVariable T args = .ok r ↔
      askedDims args = .ok r.dims ∧
      (∀ v, .values (some v) ∈ args → Dims.volume r.dims = v.length) ∧
      ((∃ w, .variances w ∈ args) → T.canHaveVariances = true) ∧
      r = ⟨r.dims, (args.findSome? asUnit).getD T.unit, filled r.dims T.zero ((args.findSome? asValues).getD none),
        (args.findSome? asVariances).map (filled r.dims T.zero)⟩ := by
  have hv : ∀ dims, askedDims args = .ok dims → 0 ≤ Dims.volume dims := by
    intro dims ha
    rcases askedDims_ok ha with hm | hm
    · exact volume_nonneg (hd dims hm).2
    · exact volume_nonneg (Dims.ofLabels_WF hm).2
  rw [makeVariable_eq T args h]
  have hfill : ∀ (dims : Dims) (o : Option (List V)), orDefault (Dims.volume dims) T.zero o = filled dims T.zero o := by
    intro dims o; cases o <;> rfl
  have hmap : ∀ (dims : Dims), orDefault (Dims.volume dims) T.zero = filled dims T.zero := fun dims => funext (hfill dims)
  have hval : ∀ v, .values (some v) ∈ args ↔ (args.findSome? asValues).getD none = some v := by
    intro v
    have hf : ∀ a : Arg U V, argKind a ≠ 4 → asValues a = none := by intro b hb; cases b <;> simp_all [argKind, asValues]
    constructor
    · intro hm
      rw [(find_iff h.once hf (some v)).2 ⟨_, hm, rfl⟩]; rfl
    · intro hm
      cases hs : args.findSome? asValues with
      | none => rw [hs] at hm; cases hm
      | some o =>
        rw [hs] at hm
        simp only [Option.getD_some] at hm
        subst hm
        obtain ⟨a, ha, hx⟩ := (find_iff h.once hf (some v)).1 hs
        cases a with
        | values u => simp only [asValues, Option.some.injEq] at hx; rw [← hx]; exact ha
        | unit u => cases hx
        | dims u => cases hx
        | shape u => cases hx
        | dimensions u => cases hx
        | variances u => cases hx
  have hvar : (∃ w, .variances w ∈ args) ↔ (args.findSome? asVariances).isSome = true := by
    have hf : ∀ a : Arg U V, argKind a ≠ 5 → asVariances a = none := by intro b hb; cases b <;> simp_all [argKind, asVariances]
    constructor
    · rintro ⟨w, hm⟩
      rw [(find_iff h.once hf w).2 ⟨_, hm, rfl⟩]; rfl
    · intro hm
      obtain ⟨w, hw⟩ := Option.isSome_iff_exists.1 hm
      obtain ⟨a, ha, hx⟩ := (find_iff h.once hf w).1 hw
      cases a with
      | variances u => exact ⟨u, ha⟩
      | unit u => cases hx
      | dims u => cases hx
      | shape u => cases hx
      | dimensions u => cases hx
      | values u => cases hx
  have hlen : ∀ dims : Dims, 0 ≤ Dims.volume dims → ((∀ v, .values (some v) ∈ args → Dims.volume dims = v.length) ↔
      Dims.volume dims = (filled dims T.zero ((args.findSome? asValues).getD none)).length) := by
    intro dims h0
    cases ho : (args.findSome? asValues).getD none with
    | none =>
      constructor
      · intro _
        simp only [filled, List.length_replicate]
        omega
      · intro _ v hm
        rw [hval, ho] at hm; cases hm
    | some v =>
      constructor
      · intro hm
        exact hm v ((hval v).2 ho)
      · intro hm v' hm'
        rw [hval, ho] at hm'
        cases hm'
        exact hm
  cases ha : askedDims args with
  | error e =>
    simp only [Except.bind, reduceCtorEq, false_and]
  | ok dims =>
    have h0 := hv dims ha
    simp only [Except.bind, requested, construct, hmap]
    rw [hvar]
    by_cases hc : (args.findSome? asVariances).isSome = true ∧ T.canHaveVariances = false
    · rw [if_pos hc]
      simp only [reduceCtorEq, false_iff]
      rintro ⟨-, -, h3, -⟩
      rw [h3 hc.1] at hc
      simp at hc
    · rw [if_neg hc]
      by_cases hs : Dims.volume dims ≠ (filled dims T.zero ((args.findSome? asValues).getD none)).length
      · rw [if_pos hs]
        simp only [reduceCtorEq, false_iff]
        rintro ⟨h1, h2, -, -⟩
        injection h1 with h1
        subst h1
        exact hs ((hlen _ h0).1 h2)
      · rw [if_neg hs]
        rw [ne_eq, not_not] at hs
        constructor
        · intro hr
          injection hr with hr
          subst hr
          refine ⟨rfl, (hlen _ h0).2 hs, ?_, rfl⟩
          intro hv'
          by_contra hcc
          exact hc ⟨hv', by simpa using hcc⟩
        · rintro ⟨h1, -, -, h4⟩
          injection h1 with h1
          rw [h4, h1]

/-- Values given for a unit, none for variances: they are zero. -/
example : makeVariable (⟨true, 0, 9⟩ : Elem Nat Int) [.variances none, .dimensions [(1, 2)], .unit 4, .values (some [5, 7])] =
    .ok ⟨[(1, 2)], 4, [5, 7], some [0, 0]⟩ := rfl

/-- **C74** (wrong): the number of variances is not checked. Every list of variances, of any length, is accepted along with values of the right number, and
reading a variance beyond its end is undefined behaviour. -/
theorem C74_wrong_variances_length (T : Elem U V) (hT : T.canHaveVariances = true) (dims : Dims) (v w : List V)
    (hv : Dims.volume dims = v.length) :
    ∃ r, makeVariable T [.dimensions dims, .values (some v), .variances (some w)] = .ok r ∧ r.dims = dims ∧
      ∀ k, w.length ≤ k → readVariance r k = .error .ub := by
  refine ⟨⟨dims, T.unit, v, some w⟩, ?_, rfl, ?_⟩
  · simp [makeVariable, parseAll, parse, construct, orDefault, hT, hv]
  · intro k hk
    simp [readVariance, List.getElem?_eq_none hk]

/-- Three values, one variance: reading the third variance. -/
example : (makeVariable (⟨true, 0, 9⟩ : Elem Nat Int) [.dimensions [(1, 3)], .values (some [5, 7, 8]), .variances (some [1])]).bind (readVariance · 2) =
    .error .ub := rfl

private theorem sameShape_iff : ∀ a b : List Int, sameShape a b = true ↔ a = b
  | [], [] => by simp [sameShape]
  | [], b :: bs => by simp [sameShape]
  | a :: as, [] => by simp [sameShape]
  | a :: as, b :: bs => by simp [sameShape, sameShape_iff as bs]

private theorem zipLabels_ok : ∀ (ls : List Dim) (ns : List Int) (acc r : Dims), zipLabels ls ns acc = .ok r →
    Sizes.shape r = Sizes.shape acc ++ ns ∧ Sizes.labels r = Sizes.labels acc ++ ls ∧ ls.length = ns.length
  | [], [], acc, r, h => by simp only [zipLabels, Except.ok.injEq] at h; subst h; simp
  | [], _ :: _, _, _, h => by simp [zipLabels] at h
  | _ :: _, [], _, _, h => by simp [zipLabels] at h
  | l :: ls, n :: ns, acc, r, h => by
    simp only [zipLabels] at h
    split at h
    · cases h
    · rename_i d hd
      obtain ⟨-, -, -, rfl⟩ := (C01_add_iff _ _ _ _).2.1 hd
      obtain ⟨h1, h2, h3⟩ := zipLabels_ok ls ns _ _ h
      refine ⟨?_, ?_, by simp [h3]⟩
      · rw [h1]; simp [Sizes.shape]
      · rw [h2]; simp [Sizes.labels]

private theorem volume_shape (dims : Dims) : Dims.volume dims = (Sizes.shape dims).foldl (· * ·) 1 := by
  simp only [Dims.volume, Sizes.shape, List.foldl_map]

/-- The data is an array: as many elements as the product of its shape. -/
def PyData.Ok (a : PyData V) : Prop := a.shape.foldl (· * ·) (1 : Int) = a.elems.length

private theorem makeElementArray_ok {dims : Dims} {a : PyData V} {o : Option (List V)} (ha : PyData.Ok a) (h : makeElementArray dims (some a) = .ok o) :
    o = some a.elems ∧ Sizes.shape dims = a.shape ∧ Dims.volume dims = a.elems.length := by
  simp only [makeElementArray] at h
  split at h
  · rename_i hd
    rw [List.isEmpty_iff] at hd
    subst hd
    split at h
    · rename_i x hs he
      injection h with h
      subst h
      exact ⟨by rw [he], by rw [hs]; rfl, by rw [he]; rfl⟩
    · cases h
  · split at h
    · rename_i hs
      injection h with h
      subst h
      exact ⟨rfl, hs, by rw [volume_shape, hs]; exact ha⟩
    · cases h

private theorem make_ok {T : Elem U V} {dims : Dims} {v : Option (List V)} {w : Option (Option (List V))} {r : Made U V}
    (h : construct T ⟨none, dims, v, w, [], []⟩ = .ok r) :
    r = ⟨dims, T.unit, filled dims T.zero v, w.map (filled dims T.zero)⟩ ∧ Dims.volume dims = (filled dims T.zero v).length := by
  have hfill : ∀ (o : Option (List V)), orDefault (Dims.volume dims) T.zero o = filled dims T.zero o := by
    intro o; cases o <;> rfl
  unfold construct at h
  simp only [hfill] at h
  split at h
  · cases h
  split at h
  · cases h
  rename_i hs
  rw [ne_eq, not_not] at hs
  injection h with h
  subst h
  refine ⟨?_, hs⟩
  cases w with
  | none => rfl
  | some w => simp [hfill]

/-- **C74** (Python): every variable made by the constructor for Python has as many values, and as many variances if any, as its volume, whatever is given. Its dims have
the given labels in order and the shape of the arrays; the elements are those given, and zeros for values that are not. -/
theorem C74_python (T : Elem U V) (labels : List Dim) (values variances : Option (PyData V)) (r : Made U V)
    (hv : ∀ a, values = some a → PyData.Ok a) (hw : ∀ a, variances = some a → PyData.Ok a)
    (h : Construct.init T labels values variances = .ok r) :
    Dims.volume r.dims = r.values.length ∧ (∀ w, r.variances = some w → Dims.volume r.dims = w.length) ∧
    Sizes.labels r.dims = labels ∧
    (∀ a, values = some a → Sizes.shape r.dims = a.shape ∧ r.values = a.elems) ∧
    (values = none → ∀ x ∈ r.values, x = T.zero) ∧
    (∀ a, variances = some a → Sizes.shape r.dims = a.shape ∧ r.variances = some a.elems) ∧
    (variances = none → r.variances = none) := by
  unfold Construct.init at h
  split at h
  · cases h
  rename_i hnn
  split at h
  · cases h
  rename_i dims hd
  have hlab : Sizes.labels dims = labels := by
    unfold buildDimensions at hd
    split at hd
    · rename_i hl
      injection hd with hd
      rw [List.isEmpty_iff] at hl
      rw [← hd, hl]; rfl
    · split at hd
      · split at hd
        · exact (zipLabels_ok _ _ _ _ hd).2.1
        · cases hd
      · exact (zipLabels_ok _ _ _ _ hd).2.1
      · exact (zipLabels_ok _ _ _ _ hd).2.1
      · cases hd
  unfold makeFrom at h
  split at h
  · cases h
  rename_i v hv'
  cases variances with
  | none =>
    simp only [makeVariable, parseAll, parse] at h
    obtain ⟨hr, hlen⟩ := make_ok h
    cases values with
    | none => simp at hnn
    | some a =>
      obtain ⟨h1, h2, h3⟩ := makeElementArray_ok (hv a rfl) hv'
      subst h1
      subst hr
      refine ⟨hlen, by simp, hlab, ?_, by simp, by simp, by simp⟩
      intro a' ha'
      cases ha'
      exact ⟨h2, rfl⟩
  | some b =>
    simp only [] at h
    split at h
    · cases h
    rename_i w hw'
    simp only [makeVariable, parseAll, parse] at h
    obtain ⟨hr, hlen⟩ := make_ok h
    obtain ⟨g1, g2, g3⟩ := makeElementArray_ok (hw b rfl) hw'
    subst g1
    subst hr
    cases values with
    | none =>
      simp only [makeElementArray, Except.ok.injEq] at hv'
      subst hv'
      refine ⟨hlen, ?_, hlab, by simp, ?_, ?_, by simp⟩
      · intro w hw; simp only [filled, Option.map_some, Option.some.injEq] at hw; rw [← hw]; exact g3
      · intro _ x hx; exact List.eq_of_mem_replicate hx
      · intro a ha; cases ha; exact ⟨g2, rfl⟩
    | some a =>
      obtain ⟨h1, h2, h3⟩ := makeElementArray_ok (hv a rfl) hv'
      subst h1
      refine ⟨hlen, ?_, hlab, ?_, by simp, ?_, by simp⟩
      · intro w hw; simp only [filled, Option.map_some, Option.some.injEq] at hw; rw [← hw]; exact g3
      · intro a' ha'; cases ha'; exact ⟨h2, rfl⟩
      · intro a ha; cases ha; exact ⟨g2, rfl⟩

/-- Variances only; and values and variances of different shape, one scalar. -/
example : Construct.init (⟨true, 0, 9⟩ : Elem Nat Int) [1] none (some ⟨[2], [5, 7]⟩) = .ok ⟨[(1, 2)], 9, [0, 0], some [5, 7]⟩ ∧
    Construct.init (⟨true, 0, 9⟩ : Elem Nat Int) [1] (some ⟨[2], [5, 7]⟩) (some ⟨[1], [5]⟩) = .error .invalidArgument ∧
    Construct.init (⟨true, 0, 9⟩ : Elem Nat Int) [] (some ⟨[], [5]⟩) (some ⟨[1], [5]⟩) = .error .dimension := ⟨rfl, rfl, rfl⟩

end Scipp.Props
