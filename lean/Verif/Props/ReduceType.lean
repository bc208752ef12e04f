import Verif.Spec.ReduceType
import Verif.Spec.MixedArith
import Mathlib.Tactic.Ring
import Mathlib.Tactic.Linarith
import Mathlib.Algebra.BigOperators.Group.List.Basic
/-!
C92: types, units and integer widths of reductions.
-/
namespace Scipp.Props
open Scipp MixedArith ReduceType
open _root_.Scipp.MUnit (one)
variable {n : Nat} {F : Floats}

/-- **C92** Sums, extrema, `all` and `any` along a dim exist for exactly the types that `resultOf` tells, with its type and the unit of the
variable. -/
theorem C92_type (range : ExpRange n) (r : Red) (t : ET) (u : MUnit n) (h : r ≠ .mean ∧ r ≠ .nanmean) :
    along range r t u = outcome (resultOf r t) u := by
  obtain ⟨h1, h2⟩ := h
  cases r <;> first | (exact absurd rfl h1) | (exact absurd rfl h2) | (cases t <;> rfl)

theorem normalizedUnit_some (range : ExpRange n) (a : PreciseUnit n) (ha : range.fits a = true)
    (h1 : range.fits ⟨1, fun _ => 0⟩ = true) : normalizedUnit range (some a) = .ok (some a) := by
  have e1 : (⟨1, fun _ => 0⟩ : PreciseUnit n).div ⟨1, fun _ => 0⟩ = ⟨1, fun _ => 0⟩ := by simp [PreciseUnit.div]
  have e2 : a.mul ⟨1, fun _ => 0⟩ = a := by cases a; simp [PreciseUnit.mul]
  simp only [normalizedUnit, one, MUnit.div, e1, h1, if_true, MUnit.mul, e2, ha]

/-- **C92** The mean along a dim exists for numbers and `bool` and has the type that `resultOf` tells and the unit of the variable, if the variable
has a unit; so does `nanmean` for numbers. What is missing: see `C92_wrong_mean_without_unit` and `C92_wrong_nanmean_bool`. -/
theorem C92_mean_partial (range : ExpRange n) (t : ET) (a : PreciseUnit n) (ha : range.fits a = true)
    (h1 : range.fits ⟨1, fun _ => 0⟩ = true) :
    along range .mean t (some a) = outcome (resultOf .mean t) (some a) ∧
    (t ≠ .bool → along range .nanmean t (some a) = outcome (resultOf .nanmean t) (some a)) := by
  have e := normalizedUnit_some range a ha h1
  constructor
  · cases t <;> simp [along, accumulated, accumulates, workType, startType, addInPlace, normalizedType, supported, ET.isNumber, common, e,
      outcome, resultOf, bind, Except.bind, pure, Except.pure]
  · intro hb
    cases t <;> simp_all [along, accumulated, accumulates, workType, startType, addInPlace, normalizedType, supported, ET.isNumber, common,
      outcome, resultOf, bind, Except.bind, pure, Except.pure, finiteCount]

/-- **C92** (violated). A variable without unit has no mean, although it has a sum: `bool` by default, integers such as indices and counts. -/
theorem C92_wrong_mean_without_unit (range : ExpRange n) (h1 : range.fits ⟨1, fun _ => 0⟩ = true) (t : ET) (ht : t ≠ .time) (ndim : Nat) :
    along range .mean t none = .error .unit ∧ all range .mean ndim t none = .error .unit ∧
    along range .sum t none = outcome (resultOf .sum t) none ∧ (resultOf .sum t).isSome := by
  have e1 : (⟨1, fun _ => 0⟩ : PreciseUnit n).div ⟨1, fun _ => 0⟩ = ⟨1, fun _ => 0⟩ := by simp [PreciseUnit.div]
  have e : normalizedUnit range (none : MUnit n) = .error .unit := by
    simp only [normalizedUnit, one, MUnit.div, e1, h1, if_true, MUnit.mul]
  have hsum : ∃ s, accumulated .sum t = .ok s ∧ s ≠ .time := by
    cases t <;> first | (exact absurd rfl ht) | exact ⟨_, rfl, by decide⟩
  have hall : ∀ (k : Nat) (t : ET), t ≠ .time → ∃ s, accumulatedAll .sum k t = .ok s ∧ s ≠ .time := by
    intro k
    induction k with
    | zero => intro t ht; exact ⟨t, rfl, ht⟩
    | succ k ih =>
      intro t ht
      have : ∃ s, accumulated .sum t = .ok s ∧ s ≠ .time := by
        cases t <;> first | (exact absurd rfl ht) | exact ⟨_, rfl, by decide⟩
      obtain ⟨s, hs, hst⟩ := this
      simp only [accumulatedAll, hs]
      exact ih s hst
  have hn : ∀ s : ET, s ≠ .time → ∃ t', normalizedType s = .ok t' := by
    intro s hs
    cases s <;> first | (exact absurd rfl hs) | exact ⟨_, rfl⟩
  refine ⟨?_, ?_, C92_type range .sum t none (by decide), ?_⟩
  · obtain ⟨s, hs, hst⟩ := hsum
    obtain ⟨t', ht'⟩ := hn s hst
    simp [along, hs, ht', e, bind, Except.bind, pure, Except.pure]
  · obtain ⟨s, hs, hst⟩ := hall ndim t ht
    obtain ⟨t', ht'⟩ := hn s hst
    simp [ReduceType.all, hs, ht', e, bind, Except.bind, pure, Except.pure]
  · cases t <;> first | (exact absurd rfl ht) | rfl

/-- **C92** (violated). `bool` with a unit have a mean but no `nanmean`. -/
theorem C92_wrong_nanmean_bool (range : ExpRange n) (u : MUnit n) : along range .nanmean .bool u = .error .dtype := rfl

/-- **C92** Reducing all dims, one after the other, gives the same type and unit as reducing one, whatever their number, if there are any. What is
missing: see `C92_wrong_scalar`. -/
theorem C92_all_dims_partial (range : ExpRange n) (r : Red) (k : Nat) (t : ET) (u : MUnit n) : all range r (k + 1) t u = along range r t u := by
  have key : ∀ (r : Red) (t s : ET), accumulated r t = .ok s → accumulated r s = .ok s := by
    intro r t s h
    cases r <;> cases t <;> first | (cases h; rfl) | (simp [accumulated, accumulates, workType, startType, addInPlace] at h)
  have hall : ∀ (r : Red) (k : Nat) (s : ET), accumulated r s = .ok s → accumulatedAll r k s = .ok s := by
    intro r k
    induction k with
    | zero => intro s _; rfl
    | succ k ih => intro s h; simp only [accumulatedAll, h]; exact ih s h
  have main : ∀ r : Red, accumulatedAll r (k + 1) t = accumulated r t := by
    intro r
    simp only [accumulatedAll]
    cases h : accumulated r t with
    | error e => rfl
    | ok s => exact hall r k s (key r t s h)
  cases r <;> simp only [ReduceType.all, along, main]

/-- **C92** (violated). The sum of a scalar is a copy, which is `bool` for a `bool` and exists for datetimes. -/
theorem C92_wrong_scalar (range : ExpRange n) (u : MUnit n) :
    all range .sum 0 .bool u = .ok (.bool, u) ∧ all range .sum 1 .bool u = .ok (.i64, u) ∧
    all range .sum 0 .time u = .ok (.time, u) ∧ all range .sum 1 .time u = .error .dtype := ⟨rfl, rfl, rfl, rfl⟩

/-! ### Integers -/

/-- **C92** (type of the accumulator): a sum accumulates in the type of its result, except that numbers in single precision are added in double
precision; the other reductions work in the type of their result. -/
theorem C92_work_type (r : Red) (t : ET) (h : (resultOf r t).isSome) (hm : r ≠ .mean ∧ r ≠ .nanmean) :
    (workType r t = if (r = .sum ∨ r = .nansum) ∧ t = .f32 then .f64 else (resultOf r t).getD .f64) := by
  revert h hm; cases r <;> cases t <;> decide

example : workType .sum .f32 = .f64 ∧ workType .sum .i32 = .i32 ∧ workType .sum .bool = .i64 ∧ workType .max .f32 = .f32 :=
  ⟨C92_work_type .sum .f32 rfl (by decide), C92_work_type .sum .i32 rfl (by decide), C92_work_type .sum .bool rfl (by decide),
    C92_work_type .max .f32 rfl (by decide)⟩

/-- Type of the accumulator for elements of type `t`. -/
def intAccum (t : ET) : ET := if t = .i32 then .i32 else .i64

theorem fit_ok {bits : Nat} {m k : Int} (h : fit bits m = .ok k) : k = m ∧ -2 ^ (bits - 1) ≤ m ∧ m < 2 ^ (bits - 1) := by
  simp only [fit] at h
  split at h
  · rename_i hm; simp only [Except.ok.injEq] at h; exact ⟨h.symm, hm⟩
  · cases h

theorem step_spec {t : ET} (ht : t = .i32 ∨ t = .i64) {a b : Val F} (ha : a.et = t) (hb : b.et = t ∨ (t = .i64 ∧ b.et = .bool)) :
    (∀ r, step (.ok a) (.ok b) = .ok r → r.et = t ∧ r.asInt = a.asInt + b.asInt ∧ -limit t ≤ r.asInt ∧ r.asInt < limit t) ∧
    (∀ e, step (.ok a) (.ok b) = .error e → e = .ub) ∧
    (-limit t ≤ a.asInt + b.asInt → a.asInt + b.asInt < limit t → ∃ r, step (.ok a) (.ok b) = .ok r) := by
  rcases ht with rfl | rfl
  · cases a <;> simp only [Val.et, reduceCtorEq] at ha
    rename_i x
    rcases hb with hb | ⟨h, _⟩
    · cases b <;> simp only [Val.et, reduceCtorEq] at hb
      rename_i y
      have e : (step (.ok (.i32 x)) (.ok (.i32 y)) : Except Err (Val F)) = if -2 ^ 31 ≤ x + y ∧ x + y < 2 ^ 31 then .ok (.i32 (x + y)) else .error .ub := by
        have : (step (.ok (.i32 x)) (.ok (.i32 y)) : Except Err (Val F)) = ((fit 32 (x + y)).map .i32 >>= assign .i32) := rfl
        rw [this]; simp only [fit]; split <;> rename_i h <;> simp_all [Except.map, bind, Except.bind, assign]
      rw [e]
      simp only [Val.asInt, limit]
      by_cases h : -2 ^ 31 ≤ x + y ∧ x + y < 2 ^ 31
      · rw [if_pos h]
        refine ⟨?_, (by intro e he; cases he), fun _ _ => ⟨_, rfl⟩⟩
        rintro r hr; cases hr; exact ⟨rfl, rfl, h.1, h.2⟩
      · rw [if_neg h]
        exact ⟨(by intro r hr; cases hr), (by intro e he; cases he; rfl), fun h1 h2 => absurd ⟨h1, h2⟩ h⟩
    · cases h
  · cases a <;> simp only [Val.et, reduceCtorEq] at ha
    rename_i x
    have e : (step (.ok (.i64 x)) (.ok b) : Except Err (Val F)) =
        if -2 ^ 63 ≤ x + b.asInt ∧ x + b.asInt < 2 ^ 63 then .ok (.i64 (x + b.asInt)) else .error .ub := by
      have : (step (.ok (.i64 x)) (.ok b) : Except Err (Val F)) = ((fit 64 (x + b.asInt)).map .i64 >>= assign .i64) := by
        rcases hb with hb | ⟨_, hb⟩ <;> cases b <;> first | rfl | (simp only [Val.et, reduceCtorEq] at hb)
      rw [this]; simp only [fit]; split <;> rename_i h <;> simp_all [Except.map, bind, Except.bind, assign]
    rw [e]
    have hx : (Val.i64 x : Val F).asInt = x := rfl
    simp only [hx, limit]
    by_cases h : -2 ^ 63 ≤ x + b.asInt ∧ x + b.asInt < 2 ^ 63
    · rw [if_pos h]
      refine ⟨?_, (by intro e he; cases he), fun _ _ => ⟨_, rfl⟩⟩
      rintro r hr; cases hr; exact ⟨rfl, rfl, h.1, h.2⟩
    · rw [if_neg h]
      exact ⟨(by intro r hr; cases hr), (by intro e he; cases he; rfl), fun h1 h2 => absurd ⟨h1, h2⟩ h⟩

theorem total_append (l m : List (Val F)) : total (l ++ m) = total l + total m := by simp [total]
theorem magnitude_append (l m : List (Val F)) : magnitude (l ++ m) = magnitude l + magnitude m := by simp [magnitude]

theorem magnitude_ge (l : List (Val F)) : 0 ≤ magnitude l ∧ -magnitude l ≤ total l ∧ total l ≤ magnitude l := by
  induction l with
  | nil => simp [magnitude, total]
  | cons a l ih => simp only [magnitude, total, List.map_cons, List.sum_cons] at ih ⊢; omega

/-- Elements of an integer type, summed with the accumulator for it. -/
def Ints (t : ET) (l : List (Val F)) : Prop := ∀ x ∈ l, x.et = t

theorem sums_spec {t : ET} (ht : t = .i32 ∨ t = .i64 ∨ t = .bool) {l : List (Val F)} {res : Except Err (Val F)}
    (h : SumsTo (intAccum t) l res) (hl : Ints t l) :
    (∀ r, res = .ok r → r.et = intAccum t ∧ r.asInt = total l ∧ -limit (intAccum t) ≤ r.asInt ∧ r.asInt < limit (intAccum t)) ∧
    (∀ e, res = .error e → e = .ub) ∧ (magnitude l < limit (intAccum t) → ∃ r, res = .ok r) := by
  have hacc : intAccum t = .i32 ∨ intAccum t = .i64 := by rcases ht with rfl | rfl | rfl <;> simp [intAccum]
  have hel : ∀ x ∈ l, x.et = intAccum t ∨ (intAccum t = .i64 ∧ x.et = .bool) := by
    intro x hx
    have := hl x hx
    rcases ht with rfl | rfl | rfl <;> simp [this, intAccum]
  clear hl
  induction h with
  | start =>
    refine ⟨?_, (by intro e he; cases he), fun _ => ⟨_, rfl⟩⟩
    intro r hr
    cases hr
    rcases hacc with h | h <;> rw [h] <;> simp [zero, Val.et, Val.asInt, total, limit]
  | @element l a b _ ih =>
    obtain ⟨i1, i2, i3⟩ := ih (fun x hx => hel x (by simp [hx]))
    have hb := hel b (by simp)
    cases a with
    | error e =>
      refine ⟨(by intro r hr; cases hr), ?_, ?_⟩
      · intro e' he; cases he; exact i2 e rfl
      · intro hm
        rw [magnitude_append] at hm
        obtain ⟨r, hr⟩ := i3 (by have := (magnitude_ge [b]).1; omega)
        cases hr
    | ok a =>
      obtain ⟨j1, j2, j3, j4⟩ := i1 a rfl
      obtain ⟨s1, s2, s3⟩ := step_spec hacc j1 hb
      have hb1 : total [b] = b.asInt := by simp [total]
      refine ⟨fun r hr => ?_, s2, fun hm => ?_⟩
      · obtain ⟨k1, k2, k3⟩ := s1 r hr
        rw [total_append, hb1]
        exact ⟨k1, by omega, k3⟩
      · rw [magnitude_append] at hm
        have h1 := magnitude_ge l
        have h2 := magnitude_ge [b]
        exact s3 (by omega) (by omega)
  | @combine l m a b _ _ ih1 ih2 =>
    obtain ⟨i1, i2, i3⟩ := ih1 (fun x hx => hel x (by simp [hx]))
    obtain ⟨g1, g2, g3⟩ := ih2 (fun x hx => hel x (by simp [hx]))
    cases a with
    | error e =>
      refine ⟨(by intro r hr; cases b <;> cases hr), ?_, ?_⟩
      · intro e' he; cases b <;> cases he <;> exact i2 e rfl
      · intro hm
        rw [magnitude_append] at hm
        obtain ⟨r, hr⟩ := i3 (by have := (magnitude_ge m).1; omega)
        cases hr
    | ok a =>
      cases b with
      | error e =>
        refine ⟨(by intro r hr; cases hr), ?_, ?_⟩
        · intro e' he; cases he; exact g2 e rfl
        · intro hm
          rw [magnitude_append] at hm
          obtain ⟨r, hr⟩ := g3 (by have := (magnitude_ge l).1; omega)
          cases hr
      | ok b =>
        obtain ⟨j1, j2, j3, j4⟩ := i1 a rfl
        obtain ⟨p1, p2, p3, p4⟩ := g1 b rfl
        obtain ⟨s1, s2, s3⟩ := step_spec hacc j1 (.inl p1)
        refine ⟨fun r hr => ?_, s2, fun hm => ?_⟩
        · obtain ⟨k1, k2, k3⟩ := s1 r hr
          rw [total_append]
          exact ⟨k1, by omega, k3⟩
        · rw [magnitude_append] at hm
          have h1 := magnitude_ge l
          have h2 := magnitude_ge m
          exact s3 (by omega) (by omega)
  | @perm l m a hp _ ih =>
    obtain ⟨i1, i2, i3⟩ := ih (fun x hx => hel x (hp.mem_iff.1 hx))
    have e1 : total m = total l := (hp.map _).sum_eq.symm
    have e2 : magnitude m = magnitude l := (hp.map _).sum_eq.symm
    rw [e1, e2]
    exact ⟨i1, i2, i3⟩

/-- **C92** The sum of integers is never wrong: whatever the order and the partial sums, it is the exact sum, or there was an overflow. -/
theorem C92_sum_exact (t : ET) (ht : t = .i32 ∨ t = .i64 ∨ t = .bool) (l : List (Val F)) (r : Val F) (hl : Ints t l)
    (h : SumsTo (intAccum t) l (.ok r)) : r.et = intAccum t ∧ r.asInt = total l :=
  let ⟨h1, _⟩ := sums_spec ht h hl
  ⟨(h1 r rfl).1, (h1 r rfl).2.1⟩

/-- **C92** There is no overflow if the sum of the magnitudes is within the range of the type. What is missing: `C92_wrong_overflow`. -/
theorem C92_sum_partial (t : ET) (ht : t = .i32 ∨ t = .i64 ∨ t = .bool) (l : List (Val F)) (res : Except Err (Val F)) (hl : Ints t l)
    (h : SumsTo (intAccum t) l res) (hm : magnitude l < limit (intAccum t)) : ∃ r, res = .ok r ∧ r.et = intAccum t ∧ r.asInt = total l := by
  obtain ⟨h1, _, h3⟩ := sums_spec ht h hl
  obtain ⟨r, rfl⟩ := h3 hm
  exact ⟨r, rfl, (h1 r rfl).1, (h1 r rfl).2.1⟩

/-- **C92** The sum of `bool` is the number of true ones. -/
theorem C92_sum_bool (l : List (Val F)) (res : Except Err (Val F)) (hl : Ints .bool l) (h : SumsTo .i64 l res) (hn : l.length < 2 ^ 63) :
    res = .ok (.i64 (l.countP fun x => x.asInt != 0)) := by
  have hm : magnitude l ≤ l.length := by
    clear h hn
    induction l with
    | nil => simp [magnitude]
    | cons a l ih =>
      have ha := hl a (by simp)
      have := ih (fun x hx => hl x (by simp [hx]))
      cases a <;> simp only [Val.et, reduceCtorEq] at ha
      rename_i b
      cases b <;> simp [magnitude, Val.asInt] at this ⊢ <;> omega
  have ht : total l = l.countP fun x => x.asInt != 0 := by
    clear h hn hm
    induction l with
    | nil => simp [total]
    | cons a l ih =>
      have ha := hl a (by simp)
      have := ih (fun x hx => hl x (by simp [hx]))
      cases a <;> simp only [Val.et, reduceCtorEq] at ha
      rename_i b
      cases b <;> simp [total, Val.asInt] at this ⊢ <;> omega
  obtain ⟨r, rfl, h1, h2⟩ := C92_sum_partial .bool (by simp) l res hl h (by simp only [intAccum, limit]; simp; omega)
  cases r <;> simp [Val.et, intAccum] at h1
  simp only [Val.asInt] at h2
  rw [h2, ht]

/-- **C92** The sum of booleans is the number of those that are true. -/
theorem C92_sum_of_bools (l : List Bool) (res : Except Err (Val F)) (h : SumsTo .i64 (l.map .bool) res) (hn : l.length < 2 ^ 63) :
    res = .ok (.i64 (l.count true)) := by
  have hc : ((l.map Val.bool : List (Val F)).countP fun x => x.asInt != 0) = l.count true := by
    rw [List.countP_map, List.count]
    congr 1
    funext b
    cases b <;> rfl
  rw [← hc]
  exact C92_sum_bool (l.map .bool) res (by intro x hx; obtain ⟨b, _, rfl⟩ := List.mem_map.1 hx; rfl) h (by simpa using hn)

/-- **C92** The mean of integers is their exact sum, converted to double precision, times the reciprocal of their number. -/
theorem C92_mean_of_integers (t : ET) (ht : t = .i32 ∨ t = .i64 ∨ t = .bool) (l : List (Val F)) (res : Except Err (Val F)) (hl : Ints t l)
    (h : SumsTo (intAccum t) l res) (hm : magnitude l < limit (intAccum t)) (k : Nat) :
    meanOf res k = .ok (.f64 (F.op64 .mul (F.ofInt64 (total l)) (F.op64 .div (F.ofInt64 1) (F.ofInt64 k)))) := by
  obtain ⟨r, rfl, h1, h2⟩ := C92_sum_partial t ht l res hl h hm
  rcases ht with rfl | rfl | rfl <;> cases r <;> simp [Val.et, intAccum] at h1 <;> simp only [Val.asInt] at h2 <;> subst h2 <;> rfl

/-- **C92** (violated). A sum of 32-bit integers is undefined as soon as it needs more than 32 bits, and with it the mean, which
is between the smallest and the largest element. -/
theorem C92_wrong_overflow (l : List (Val F)) (res : Except Err (Val F)) (hl : Ints .i32 l) (h : SumsTo .i32 l res)
    (hbig : 2 ^ 31 ≤ total l) (k : Nat) : res = .error .ub ∧ meanOf res k = .error .ub := by
  obtain ⟨h1, h2, _⟩ := sums_spec (t := .i32) (by simp) h hl
  cases res with
  | ok r => obtain ⟨_, e, _, e2⟩ := h1 r rfl; simp [intAccum, limit] at e2; omega
  | error e => cases h2 e rfl; exact ⟨rfl, rfl⟩

/-- Two times the largest 32-bit integer. -/
example : Ints .i32 ([.i32 2147483647, .i32 2147483647] : List (Val F)) ∧ 2 ^ 31 ≤ total ([.i32 2147483647, .i32 2147483647] : List (Val F)) ∧
    SumsTo .i32 ([.i32 2147483647, .i32 2147483647] : List (Val F)) (.error .ub) := by
  refine ⟨by simp [Ints, Val.et], by simp [total, Val.asInt], ?_⟩
  exact SumsTo.element (l := [.i32 2147483647]) (b := .i32 2147483647) (SumsTo.element (l := []) (b := .i32 2147483647) .start)

/-- Three booleans, two of them true. -/
example : SumsTo .i64 ([true, false, true].map .bool : List (Val F)) (.ok (.i64 2)) ∧ ([true, false, true] : List Bool).length < 2 ^ 63 := by
  refine ⟨?_, by decide⟩
  exact SumsTo.element (l := [.bool true, .bool false]) (b := .bool true) (SumsTo.element (l := [.bool true]) (b := .bool false)
    (SumsTo.element (l := []) (b := .bool true) .start))

/-- Partial sums, in another order. -/
example : SumsTo .i64 ([.bool true, .bool false, .bool true] : List (Val F)) (.ok (.i64 2)) :=
  .perm (l := [.bool false, .bool true, .bool true]) (by
    exact List.Perm.swap _ _ _) (SumsTo.combine (l := [.bool false, .bool true]) (m := [.bool true])
      (SumsTo.element (l := [.bool false]) (b := .bool true) (SumsTo.element (l := []) (b := .bool false) .start))
      (SumsTo.element (l := []) (b := .bool true) .start))
example : SumsTo .i32 ([.i32 5, .i32 (-7)] : List (Val F)) (.ok (.i32 (-2))) ∧ magnitude ([.i32 5, .i32 (-7)] : List (Val F)) < limit .i32 :=
  ⟨SumsTo.element (l := [.i32 5]) (b := .i32 (-7)) (SumsTo.element (l := []) (b := .i32 5) .start), by simp [magnitude, Val.asInt, limit]⟩
example : ExpRange.fits (n := 1) (fun _ => (-8, 7)) ⟨2, fun _ => 3⟩ = true ∧ ExpRange.fits (n := 1) (fun _ => (-8, 7)) ⟨1, fun _ => 0⟩ = true := by
  decide

end Scipp.Props
