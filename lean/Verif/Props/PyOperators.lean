import Verif.Spec.PyOperators
import Mathlib.Tactic.SplitIfs
import Mathlib.Tactic.Tauto
/-!
C102: operators in Python.
-/
namespace Scipp.Props
open Scipp PyOps
variable {F : Type} [DecidableEq F] {ofInt : Int → Option F}

private theorem resolve_obj (l : List Arg) (c : Cls) (i : Nat) :
    (resolve (F := F) ofInt l (.obj c i)).isSome ↔ .cls c ∈ l := by
  have h1 : ∀ a : Arg, loadConvert ofInt a (.obj c i : PyObj F) = load a (.obj c i) := by intro a; cases a <;> rfl
  have h2 : ∀ a : Arg, (load a (.obj c i : PyObj F)).isSome ↔ a = .cls c := by
    intro a
    cases a with
    | cls c' =>
      by_cases hc : c' = c
      · subst hc; simp [load]
      · simp [load, hc]
    | double => simp [load]
    | int64 => simp [load]
  have h3 : (l.findSome? (load · (.obj c i : PyObj F))).isSome ↔ .cls c ∈ l := by
    rw [List.findSome?_isSome_iff]
    exact ⟨fun ⟨a, ha, h⟩ => (h2 a).mp h ▸ ha, fun h => ⟨_, h, (h2 _).mpr rfl⟩⟩
  unfold resolve
  simp only [h1]
  rw [← h3]
  cases l.findSome? (load · (.obj c i : PyObj F)) <;> simp

private theorem load_denotes {a : Arg} {o : PyObj F} {y : Operand F} (h : load a o = some y) : Denotes o y := by
  cases a <;> cases o <;> simp only [load] at h <;> first | (cases h; done) | skip
  · split_ifs at h with hc
    cases h; subst hc; rfl
  · cases h; rfl
  · split_ifs at h with hc
    cases h; rfl

private theorem findSome_denotes {l : List Arg} {o : PyObj F} {y : Operand F} (h : l.findSome? (load · o) = some y) : Denotes o y := by
  obtain ⟨a, _, ha⟩ := List.exists_of_findSome?_eq_some h
  exact load_denotes ha

/-- The integer overload comes together with that for `double`. -/
private def Paired (l : List Arg) : Prop := Arg.double ∈ l → Arg.int64 ∈ l

private theorem resolve_denotes {l : List Arg} {o : PyObj F} {y : Operand F} (hp : Paired l) (hf : Fits o) (h : resolve ofInt l o = some y) :
    Denotes o y := by
  unfold resolve at h
  split at h
  · rename_i x hx
    cases h; exact findSome_denotes hx
  · rename_i hn
    obtain ⟨a, ha, hy⟩ := List.exists_of_findSome?_eq_some h
    cases o with
    | int n =>
      cases a with
      | double =>
        have h64 := hp ha
        rw [List.findSome?_eq_none_iff] at hn
        have := hn _ h64
        simp only [load] at this
        rw [if_pos (show -2 ^ 63 ≤ n ∧ n < 2 ^ 63 from hf)] at this; cases this
      | cls c => cases hy
      | int64 => simp only [loadConvert] at hy; exact load_denotes hy
    | floatLike x => cases a <;> cases hy; rfl
    | obj c i => cases a <;> simp only [loadConvert] at hy <;> exact load_denotes hy
    | float x => cases a <;> simp only [loadConvert] at hy <;> exact load_denotes hy
    | other => cases a <;> simp only [loadConvert] at hy <;> exact load_denotes hy

private theorem forward_paired (c : Cls) (op : Op) : Paired (forward c op) := by
  unfold Paired; cases c <;> cases op <;> decide
private theorem reflected_paired (c : Cls) (op : Op) : Paired (reflected c op) := by
  unfold Paired; cases c <;> cases op <;> decide
private theorem inPlace_paired (c : Cls) (op : Op) : Paired (inPlace c op) := by
  unfold Paired; cases c <;> cases op <;> decide

/-- **C102** (the right function on the right operands; the part that holds): with integers that fit 64 bits, if `a op b` calls a function of the library,
it is that of the operator, on the values of `a` and `b` in this order; comparisons may be turned around. -/
theorem C102_calls_partial (op : Op) (a b : PyObj F) (ha : Fits a) (hb : Fits b) (h : (eval ofInt op a b).isCall) :
    Computes op a b (eval ofInt op a b) := by
  unfold eval at h ⊢
  dsimp only at h ⊢
  split at h
  · rename_i r x h1
    cases a with
    | obj c i =>
      dsimp only at h1
      cases hr : resolve ofInt (forward c op) b with
      | none => rw [hr] at h1; cases h1
      | some y =>
        rw [hr] at h1; cases h1
        exact .inl ⟨rfl, rfl, resolve_denotes (forward_paired c op) hb hr⟩
    | _ => cases h1
  · rename_i r h1 h2
    cases b with
    | obj c i =>
      dsimp only at h2
      split_ifs at h2 with hk
      · cases hr : resolve ofInt (forward c op.mirror) a with
        | none => rw [hr] at h2; cases h2
        | some y =>
          rw [hr] at h2; cases h2
          refine .inr ⟨rfl, resolve_denotes (forward_paired c _) ha hr, ?_⟩
          revert hk; cases op <;> simp [Op.kind, Op.mirror]
      · cases hr : resolve ofInt (reflected c op) a with
        | none => rw [hr] at h2; cases h2
        | some y =>
          rw [hr] at h2; cases h2
          exact .inl ⟨rfl, resolve_denotes (reflected_paired c op) ha hr, rfl⟩
    | _ => cases h2
  · split_ifs at h <;> exact h.elim

example : eval (F := Nat) (fun n => some n.toNat) .sub (.int 5) (.obj .array 3) = .call .sub (.int64 5) (.obj .array 3) ∧
    eval (F := Nat) (fun n => some n.toNat) .lt (.obj .variable 0) (.obj .array 3) = .call .gt (.obj .array 3) (.obj .variable 0) := by decide

example : Computes .lt (.float 2) (.obj .variable 3) (eval (F := Nat) (fun n => some n.toNat) .lt (.float 2) (.obj .variable 3)) :=
  C102_calls_partial _ _ _ trivial trivial trivial

/-- **C102 is violated** (large integers): an integer that does not fit 64 bits is silently replaced by a number in double precision. -/
theorem C102_wrong_large_integer (n : Int) (x : F) (hn : ¬ (-2 ^ 63 ≤ n ∧ n < 2 ^ 63)) (hx : ofInt n = some x) (op : Op) (hop : op.isBasic)
    (c : Cls) (i : Nat) : eval ofInt op (.obj c i) (.int n) = .call op (.obj c i) (.double x) := by
  have hl : ∀ a, load a (.int n : PyObj F) = none := by
    intro a; cases a <;> simp only [load, if_neg hn]
  have hr : resolve ofInt (forward c op) (.int n) = some (.double x) := by
    have h1 : (forward c op).findSome? (load · (.int n : PyObj F)) = none := by
      rw [List.findSome?_eq_none_iff]; exact fun a _ => hl a
    simp only [resolve, h1]
    cases c <;> cases op <;> first | exact hop.elim | simp [forward, Op.kind, Op.notForDatasets, scalars, loadConvert, hl, hx]
  simp only [eval, hr]; rfl

example : eval (F := Nat) (fun n => some n.toNat) .add (.obj .variable 0) (.int (2 ^ 63)) = .call .add (.obj .variable 0) (.double (2 ^ 63)) :=
  C102_wrong_large_integer _ _ (by decide) (by decide) .add trivial .variable 0

/-- Numbers can be converted if they are small enough. -/
private theorem resolve_number {l : List Arg} {o : PyObj F} (ho : IsNumber o) (hf : Fits o) (hd : Arg.double ∈ l) (hi : Arg.int64 ∈ l) :
    (resolve ofInt l o).isSome := by
  unfold resolve
  split
  · rfl
  · rename_i hn
    cases o with
    | int n =>
      rw [List.findSome?_eq_none_iff] at hn
      have := hn _ hi
      simp only [load] at this
      rw [if_pos (show -2 ^ 63 ≤ n ∧ n < 2 ^ 63 from hf)] at this; cases this
    | float x =>
      rw [List.findSome?_eq_none_iff] at hn
      cases hn _ hd
    | floatLike x =>
      rw [List.findSome?_isSome_iff]
      exact ⟨.double, hd, rfl⟩
    | obj => exact ho.elim
    | other => exact ho.elim

private theorem resolve_none {l : List Arg} {o : PyObj F} (hl : Arg.double ∉ l) (h64 : Arg.int64 ∉ l) (ho : ¬ IsObj o) : resolve ofInt l o = none := by
  have : ∀ a ∈ l, ∃ c, a = .cls c := by
    intro a ha; cases a with
    | cls c => exact ⟨c, rfl⟩
    | double => exact absurd ha hl
    | int64 => exact absurd ha h64
  have h1 : l.findSome? (load · o) = none := by
    rw [List.findSome?_eq_none_iff]
    intro a ha; obtain ⟨c, rfl⟩ := this a ha
    cases o <;> first | rfl | exact absurd trivial ho
  have h2 : l.findSome? (loadConvert ofInt · o) = none := by
    rw [List.findSome?_eq_none_iff]
    intro a ha; obtain ⟨c, rfl⟩ := this a ha
    cases o <;> first | rfl | exact absurd trivial ho
  simp only [resolve, h1, h2]

private theorem resolve_number_none {o : PyObj F} (ho : IsNumber o) {l : List Arg} (hd : Arg.double ∉ l) (hi : Arg.int64 ∉ l) :
    resolve ofInt l o = none :=
  resolve_none hd hi (by cases o <;> first | exact ho.elim | exact fun h => h)

private theorem isCall_iff (op : Op) (a b : PyObj F) : (eval ofInt op a b).isCall ↔
    (∃ c i, a = .obj c i ∧ (resolve ofInt (forward c op) b).isSome) ∨
    (∃ c i, b = .obj c i ∧ (resolve ofInt (if op.kind = .compare then forward c op.mirror else reflected c op) a).isSome) := by
  unfold eval
  dsimp only
  constructor
  · intro h
    split at h
    · rename_i r x h1
      left
      cases a with
      | obj c i =>
        refine ⟨c, i, rfl, ?_⟩
        dsimp only at h1
        cases hr : resolve ofInt (forward c op) b with
        | none => rw [hr] at h1; cases h1
        | some y => rfl
      | _ => cases h1
    · rename_i r h1 h2
      right
      cases b with
      | obj c i =>
        refine ⟨c, i, rfl, ?_⟩
        dsimp only at h2
        split_ifs at h2 ⊢ with hk
        · cases hr : resolve ofInt (forward c op.mirror) a with
          | none => rw [hr] at h2; cases h2
          | some y => rfl
        · cases hr : resolve ofInt (reflected c op) a with
          | none => rw [hr] at h2; cases h2
          | some y => rfl
      | _ => cases h2
    · split_ifs at h <;> exact h.elim
  · rintro (⟨c, i, rfl, h⟩ | ⟨c, i, rfl, h⟩)
    · obtain ⟨y, hy⟩ := Option.isSome_iff_exists.mp h
      simp only [hy, Option.map_some]; trivial
    · split_ifs at h with hk <;> obtain ⟨y, hy⟩ := Option.isSome_iff_exists.mp h
      · cases a with
        | obj c' i' =>
          dsimp only
          cases hr : resolve ofInt (forward c' op) (.obj c i) with
          | some z => simp only [Option.map_some]; trivial
          | none => simp only [Option.map_none, if_pos hk, hy, Option.map_some]; trivial
        | _ => simp only [if_pos hk, hy, Option.map_some]; trivial
      · cases a with
        | obj c' i' =>
          dsimp only
          cases hr : resolve ofInt (forward c' op) (.obj c i) with
          | some z => simp only [Option.map_some]; trivial
          | none => simp only [Option.map_none, if_neg hk, hy, Option.map_some]; trivial
        | _ => simp only [if_neg hk, hy, Option.map_some]; trivial

private theorem resolve_isSome {l : List Arg} (hl : Arg.double ∈ l ↔ Arg.int64 ∈ l) {o : PyObj F} (ho : IsNumber o) (hf : Fits o) :
    (resolve ofInt l o).isSome ↔ Arg.double ∈ l := by
  by_cases h : Arg.double ∈ l
  · simp only [h, iff_true]; exact resolve_number ho hf h (hl.mp h)
  · simp only [h, iff_false]
    rw [resolve_number_none ho h (fun h' => h (hl.mpr h'))]; simp

private theorem forward_both (c : Cls) (op : Op) : Arg.double ∈ forward c op ↔ Arg.int64 ∈ forward c op := by
  cases c <;> cases op <;> decide
private theorem reflected_both (c : Cls) (op : Op) : Arg.double ∈ reflected c op ↔ Arg.int64 ∈ reflected c op := by
  cases c <;> cases op <;> decide
private theorem inPlace_both (c : Cls) (op : Op) : Arg.double ∈ inPlace c op ↔ Arg.int64 ∈ inPlace c op := by
  cases c <;> cases op <;> decide

/-- Availability in terms of the overloads. -/
private def available (op : Op) : Option Cls → Option Cls → Bool
  | some c, some c' => decide (Arg.cls c' ∈ forward c op) ||
      decide (Arg.cls c ∈ if op.kind = .compare then forward c' op.mirror else reflected c' op)
  | some c, none => decide (Arg.double ∈ forward c op)
  | none, some c => decide (Arg.double ∈ if op.kind = .compare then forward c op.mirror else reflected c op)
  | none, none => false

private def clsOf : PyObj F → Option Cls
  | .obj c _ => some c
  | _ => none

private theorem available_iff (op : Op) (a b : PyObj F) (ha : IsOperand a) (hb : IsOperand b) (hfa : Fits a) (hfb : Fits b) :
    (eval ofInt op a b).isCall ↔ available op (clsOf a) (clsOf b) = true := by
  rw [isCall_iff]
  have key : ∀ c, Arg.double ∈ (if op.kind = .compare then forward c op.mirror else reflected c op) ↔
      Arg.int64 ∈ (if op.kind = .compare then forward c op.mirror else reflected c op) := by
    intro c; split_ifs
    · exact forward_both c _
    · exact reflected_both c _
  have num : ∀ {o : PyObj F}, ¬ IsObj o → IsOperand o → IsNumber o := fun h h' => h'.resolve_left h
  cases a <;> cases b <;> simp only [clsOf, available, reduceCtorEq, false_and, exists_false, or_false, false_or, PyObj.obj.injEq, Bool.or_eq_true, decide_eq_true_eq, Bool.false_eq_true]
  case obj.obj c i c' i' =>
    constructor
    · rintro (⟨_, _, ⟨rfl, rfl⟩, h⟩ | ⟨_, _, ⟨rfl, rfl⟩, h⟩)
      · exact .inl ((resolve_obj _ _ _).mp h)
      · exact .inr ((resolve_obj _ _ _).mp h)
    · rintro (h | h)
      · exact .inl ⟨_, _, ⟨rfl, rfl⟩, (resolve_obj _ _ _).mpr h⟩
      · exact .inr ⟨_, _, ⟨rfl, rfl⟩, (resolve_obj _ _ _).mpr h⟩
  all_goals first
    | (rename_i c i _
       constructor
       · rintro ⟨_, _, ⟨rfl, rfl⟩, h⟩
         exact (resolve_isSome (forward_both _ _) (num id hb) hfb).mp h
       · intro h
         exact ⟨_, _, ⟨rfl, rfl⟩, (resolve_isSome (forward_both _ _) (num id hb) hfb).mpr h⟩)
    | (constructor
       · rintro ⟨_, _, ⟨rfl, rfl⟩, h⟩
         exact (resolve_isSome (key _) (num id ha) hfa).mp h
       · intro h
         exact ⟨_, _, ⟨rfl, rfl⟩, (resolve_isSome (key _) (num id ha) hfa).mpr h⟩)
    | exact absurd (num id hb) id
    | exact absurd (num id ha) id

/-- Class of an object of the library by level. -/
private def levelOf : Option Cls → Nat
  | none => 0
  | some .variable => 1
  | some .array => 2
  | some .dataset => 3

private theorem level_eq (o : PyObj F) : level o = levelOf (clsOf o) := by
  cases o with
  | obj c i => cases c <;> rfl
  | _ => rfl

private theorem isObj_iff (o : PyObj F) : IsObj o ↔ clsOf o ≠ none := by
  cases o <;> simp [IsObj, clsOf]

/-- **C102** (which arithmetic is available; the part that holds): of two objects of the library or numbers, at least one of them an object, `+`, `-`, `*` and `/`
are available unless a dataset is on the right of a number or variable; `//`, `%` and `**` are available unless one is a dataset. -/
theorem C102_arithmetic_partial (op : Op) (hop : op.kind = .arith) (a b : PyObj F) (ha : IsOperand a) (hb : IsOperand b)
    (hab : IsObj a ∨ IsObj b) (hfa : Fits a) (hfb : Fits b) :
    (eval ofInt op a b).isCall ↔
      ((op.isBasic ∧ (level b = 3 → 2 ≤ level a)) ∨ (¬ op.isBasic ∧ level a ≠ 3 ∧ level b ≠ 3)) := by
  rw [available_iff op a b ha hb hfa hfb, level_eq, level_eq]
  rw [isObj_iff, isObj_iff] at hab
  revert hab hop
  generalize clsOf a = x; generalize clsOf b = y
  rcases x with _ | x <;> rcases y with _ | y
  · simp
  · cases y <;> cases op <;> simp [Op.isBasic, levelOf, available, Op.kind, reflected, scalars]
  · cases x <;> cases op <;> simp [Op.isBasic, levelOf, available, Op.kind, forward, Op.notForDatasets, scalars]
  · cases x <;> cases y <;> cases op <;>
      simp [Op.isBasic, levelOf, available, Op.kind, forward, reflected, Op.notForDatasets, scalars]

example : (eval (F := Nat) (fun n => some n.toNat) .floorDiv (.float 2) (.obj .array 0)).isCall :=
  (C102_arithmetic_partial .floorDiv rfl (.float 2) (.obj .array 0) (.inr trivial) (.inl trivial) (.inr trivial) trivial trivial).mpr
    (.inr ⟨id, by decide, by decide⟩)

/-- **C102** (operands in either order; the part that holds): without datasets, `a op b` is available if and only if `b op a` is, for arithmetic and for comparisons. -/
theorem C102_either_order_partial (op : Op) (hop : op.kind ≠ .logical) (a b : PyObj F) (ha : IsOperand a) (hb : IsOperand b)
    (hfa : Fits a) (hfb : Fits b) (hda : level a ≠ 3) (hdb : level b ≠ 3) :
    (eval ofInt op a b).isCall ↔ (eval ofInt op b a).isCall := by
  rw [available_iff op a b ha hb hfa hfb, available_iff op b a hb ha hfb hfa]
  rw [level_eq] at hda hdb
  revert hop hda hdb
  generalize clsOf a = x; generalize clsOf b = y
  rcases x with _ | x <;> rcases y with _ | y
  · simp
  · cases y <;> cases op <;> simp [levelOf, available, Op.kind, reflected, forward, Op.mirror, Op.notForDatasets, scalars]
  · cases x <;> cases op <;> simp [levelOf, available, Op.kind, reflected, forward, Op.mirror, Op.notForDatasets, scalars]
  · cases x <;> cases y <;> cases op <;>
      simp [levelOf, available, Op.kind, forward, reflected, Op.mirror, Op.notForDatasets, scalars]

example : (eval (F := Nat) (fun n => some n.toNat) .le (.obj .variable 1) (.obj .array 0)).isCall ↔
    (eval (F := Nat) (fun n => some n.toNat) .le (.obj .array 0) (.obj .variable 1)).isCall :=
  C102_either_order_partial _ (by decide) _ _ (.inl trivial) (.inl trivial) trivial trivial (by decide) (by decide)

/-- **C102 is violated** (order of operands): a dataset on the right of a number or variable is a `TypeError`, although it is accepted on the left, and a
variable can be combined with a data array by `|`, `^`, `&` only if it is on the right. -/
theorem C102_wrong_order (n : Int) (hn : Fits (.int n : PyObj F)) (i j : Nat) :
    (∀ op : Op, op.isBasic → eval ofInt op (.obj .dataset i : PyObj F) (.int n) = .call op (.obj .dataset i) (.int64 n) ∧
      eval ofInt op (.int n) (.obj .dataset i : PyObj F) = .typeError ∧
      eval ofInt op (.obj .dataset i : PyObj F) (.obj .variable j) = .call op (.obj .dataset i) (.obj .variable j) ∧
      eval ofInt op (.obj .variable j) (.obj .dataset i : PyObj F) = .typeError) ∧
    (∀ op : Op, op.kind = .logical → eval ofInt op (.obj .array i : PyObj F) (.obj .variable j) = .call op (.obj .array i) (.obj .variable j) ∧
      eval ofInt op (.obj .variable j) (.obj .array i : PyObj F) = .typeError) := by
  have hl1 : load .int64 (.int n : PyObj F) = some (.int64 n) := by simp only [load]; exact if_pos hn
  have hl2 : load .double (.int n : PyObj F) = none := rfl
  have hl3 : ∀ c, load (.cls c) (.int n : PyObj F) = none := fun _ => rfl
  constructor
  · intro op hop
    cases op <;> first | exact hop.elim | (refine ⟨?_, rfl, rfl, rfl⟩; simp [eval, resolve, forward, Op.kind, Op.notForDatasets, scalars, hl1, hl2, hl3])
  · intro op hop
    cases op <;> first | (cases hop; done) | exact ⟨rfl, rfl⟩

example : eval (F := Nat) (fun n => some n.toNat) .mul (.int 2) (.obj .dataset 0) = .typeError :=
  ((C102_wrong_order 2 (by constructor <;> decide) 0 0).1 .mul trivial).2.1

/-- **C102** (comparisons; the part that holds): comparing two variables or data arrays, or a variable with a number, calls a comparison of the library and does
not compare the identity of objects. -/
theorem C102_comparison_partial (op : Op) (hop : op.kind = .compare) (a b : PyObj F) (ha : IsOperand a) (hb : IsOperand b)
    (hfa : Fits a) (hfb : Fits b) (hab : IsObj a ∨ IsObj b) :
    (eval ofInt op a b).isCall ↔ level a ≠ 3 ∧ level b ≠ 3 ∧ ¬ (IsNumber a ∧ level b = 2) ∧ ¬ (level a = 2 ∧ IsNumber b) := by
  have hnum : ∀ o : PyObj F, IsOperand o → (IsNumber o ↔ clsOf o = none) := by
    intro o ho
    cases o <;> simp [IsNumber, clsOf]
    exact ho.elim id id
  rw [available_iff op a b ha hb hfa hfb, level_eq, level_eq, hnum a ha, hnum b hb]
  rw [isObj_iff, isObj_iff] at hab
  revert hab hop
  generalize clsOf a = x; generalize clsOf b = y
  rcases x with _ | x <;> rcases y with _ | y
  · simp
  · cases y <;> cases op <;> simp [levelOf, available, Op.kind, forward, Op.mirror, scalars]
  · cases x <;> cases op <;> simp [levelOf, available, Op.kind, forward, Op.mirror, scalars]
  · cases x <;> cases y <;> cases op <;> simp [levelOf, available, Op.kind, forward, Op.mirror, scalars]

example : (eval (F := Nat) (fun n => some n.toNat) .eq (.int 3) (.obj .variable 0)).isCall :=
  (C102_comparison_partial .eq rfl (.int 3) (.obj .variable 0) (.inr trivial) (.inl trivial) (by constructor <;> decide) trivial (.inr trivial)).mpr
    ⟨by decide, by decide, fun h => absurd h.2 (by decide), fun h => absurd h.1 (by decide)⟩

/-- **C102 is violated** (`==`): comparing a data array with a number gives `False`, whatever the data, and so does comparing two datasets, unless they are the same
object; `!=` gives `True`. -/
theorem C102_wrong_equal (n : Int) (i j : Nat) (hij : i ≠ j) :
    eval ofInt .eq (.obj .array i : PyObj F) (.int n) = .identity false ∧ eval ofInt .ne (.obj .array i : PyObj F) (.int n) = .identity true ∧
    eval ofInt .eq (.int n) (.obj .array i : PyObj F) = .identity false ∧
    eval ofInt .eq (.obj .dataset i : PyObj F) (.obj .dataset j) = .identity false ∧
    eval ofInt .ne (.obj .dataset i : PyObj F) (.obj .dataset j) = .identity true ∧
    eval ofInt .eq (.obj .dataset i : PyObj F) (.obj .dataset i) = .identity true ∧
    eval ofInt .lt (.obj .array i : PyObj F) (.int n) = .typeError := by
  simp [eval, resolve, forward, Op.kind, load, loadConvert, hij, Op.mirror]

example : eval (F := Nat) (fun n => some n.toNat) .eq (.obj .array 0) (.int 5) = .identity false := (C102_wrong_equal 5 0 1 (by decide)).1

/-- **C102** (in place; the part that holds): if the operation exists, `a op= b` modifies the object `a`, with an operand that stands for `b`, unless `b` ranks
above `a` in Variable < DataArray < Dataset, or the operation is the power of a data array. -/
theorem C102_in_place_partial (op : Op) (hop : op.kind ≠ .compare) (c : Cls) (i : Nat) (b : PyObj F) (hb : IsOperand b) (hfb : Fits b)
    (hc : (eval ofInt op (.obj c i) b).isCall) (hl : level b ≤ level (.obj c i : PyObj F)) (hp : ¬ (op = .pow ∧ c = .array)) :
    ∃ y, evalInPlace ofInt op (.obj c i) b = .modified op (c, i) y ∧ Denotes b y := by
  have hr : (resolve ofInt (inPlace c op) b).isSome := by
    rw [available_iff op (.obj c i) b (.inl trivial) hb trivial hfb] at hc
    cases b with
    | obj c' i' =>
      rw [resolve_obj]
      revert hc hl hp hop
      cases c <;> cases c' <;> cases op <;>
        simp [level, clsOf, available, Op.kind, forward, reflected, inPlace, Op.notForDatasets, scalars]
    | other => exact (hb.elim id id).elim
    | _ =>
      refine (resolve_isSome (inPlace_both c op) ?_ hfb).mpr ?_
      · trivial
      revert hc hl hp hop
      cases c <;> cases op <;> simp [level, clsOf, available, Op.kind, forward, inPlace, Op.notForDatasets, scalars]
  obtain ⟨y, hy⟩ := Option.isSome_iff_exists.mp hr
  exact ⟨y, by simp only [evalInPlace, hy], resolve_denotes (inPlace_paired c op) hfb hy⟩

example : ∃ y, evalInPlace (F := Nat) (fun n => some n.toNat) .mod (.obj .array 4) (.int 3) = .modified .mod (.array, 4) y ∧ Denotes (.int 3) y :=
  C102_in_place_partial _ (by decide) _ _ _ (.inr trivial) (by constructor <;> decide) trivial (by decide) (by decide)

/-- **C102** (in place, never the wrong object): if an object is modified, it is `a`, by the operator, with an operand that stands for `b`. -/
theorem C102_in_place_modified (op op' : Op) (a b : PyObj F) (c : Cls) (i : Nat) (y : Operand F) (hfb : Fits b)
    (h : evalInPlace ofInt op a b = .modified op' (c, i) y) : op' = op ∧ a = .obj c i ∧ Denotes b y := by
  unfold evalInPlace at h
  cases a with
  | obj c' i' =>
    dsimp only at h
    cases hr : resolve ofInt (inPlace c' op) b with
    | none => rw [hr] at h; cases h
    | some z => rw [hr] at h; cases h; exact ⟨rfl, rfl, resolve_denotes (inPlace_paired _ _) hfb hr⟩
  | _ => cases h

example : evalInPlace (F := Nat) (fun n => some n.toNat) .add (.obj .dataset 4) (.obj .variable 3) = .modified .add (.dataset, 4) (.obj .variable 3) := rfl

/-- **C102 is violated** (in place): raising a data array to a power in place does not modify it but binds the name to a new object, so other references see
no change, and so does adding a data array to a variable, or a dataset to a data array, which also changes the type. -/
theorem C102_wrong_in_place (i j : Nat) :
    evalInPlace ofInt .pow (.obj .array i : PyObj F) (.obj .variable j) = .rebound (.call .pow (.obj .array i) (.obj .variable j)) ∧
    evalInPlace ofInt .add (.obj .variable i : PyObj F) (.obj .array j) = .rebound (.call .add (.obj .variable i) (.obj .array j)) ∧
    evalInPlace ofInt .add (.obj .array i : PyObj F) (.obj .dataset j) = .rebound (.call .add (.obj .array i) (.obj .dataset j)) :=
  ⟨rfl, rfl, rfl⟩

example : evalInPlace (F := Nat) (fun n => some n.toNat) .pow (.obj .array 7) (.obj .variable 2) =
    .rebound (.call .pow (.obj .array 7) (.obj .variable 2)) := (C102_wrong_in_place 7 2).1

/-- **C102** (anything else): an operand that is neither an object of the library nor a number is never passed to the library. -/
theorem C102_other (op : Op) (c : Cls) (i : Nat) :
    ¬ (eval ofInt op (.obj c i : PyObj F) .other).isCall ∧ ¬ (eval ofInt op .other (.obj c i : PyObj F)).isCall ∧
    ∃ r, evalInPlace ofInt op (.obj c i : PyObj F) .other = .rebound r ∧ ¬ r.isCall := by
  have hn : ∀ l : List Arg, resolve ofInt l (.other : PyObj F) = none := by
    intro l
    have h1 : l.findSome? (load · (.other : PyObj F)) = none := by
      rw [List.findSome?_eq_none_iff]; intro a _; cases a <;> rfl
    have h2 : l.findSome? (loadConvert ofInt · (.other : PyObj F)) = none := by
      rw [List.findSome?_eq_none_iff]; intro a _; cases a <;> rfl
    simp only [resolve, h1, h2]
  have e1 : ¬ (eval ofInt op (.obj c i : PyObj F) .other).isCall := by
    rw [isCall_iff]
    rintro (⟨_, _, _, h⟩ | ⟨_, _, h, _⟩)
    · rw [hn] at h; cases h
    · cases h
  refine ⟨e1, ?_, _, by simp only [evalInPlace, hn], e1⟩
  rw [isCall_iff]
  rintro (⟨_, _, h, _⟩ | ⟨_, _, _, h⟩)
  · cases h
  · rw [hn] at h; cases h

example : eval (F := Nat) (fun n => some n.toNat) .add (.obj .variable 0) .other = .typeError := rfl

end Scipp.Props
