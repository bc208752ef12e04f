import Verif.Spec.PyDType
import Verif.Props.ToUnit
/-!
C88: dtype and unit of variables created in Python, and the instants of datetimes (`lib/python/dtype.cpp`, `unit.cpp`, `numpy.cpp`,
`variable_init.cpp`).
-/
namespace Scipp.Props
open Scipp PyDType ToUnit Numeric
open _root_.Scipp.MUnit (one)
variable {n : Nat}

private theorem conv_iff {a b : DT} : conversionPossible a b = true ↔ Convertible a b := by
  unfold conversionPossible Convertible
  cases a <;> cases b <;> simp [DT.isFundamental, DT.isInt]

private theorem of_ne_one {T : TimeTable n} (hT : T.Ok) {t : NpTime} {u : PreciseUnit n} (h : T.of t = some u) : (some u : MUnit n) ≠ one ∧ u.exps = T.sec := by
  have hb : u.exps = T.sec := by
    cases t <;> simp only [TimeTable.of, Option.some.injEq, reduceCtorEq] at h <;> (subst h; exact hT.base _ (by simp))
  refine ⟨?_, hb⟩
  intro hc
  obtain ⟨i, hi⟩ := hT.time
  have : u = ⟨1, fun _ => 0⟩ := Option.some.inj hc
  rw [this] at hb
  exact hi (congrFun hb i).symm

private theorem parse_eq (T : TimeTable n) (t : NpTime) :
    parseDatetime T (.datetime t) = if t = .other then .error .invalidArgument else .ok (match T.of t with | some u => some u | none => one) := by
  cases t <;> rfl

private theorem parse_ok (T : TimeTable n) {t : NpTime} (ht : t ≠ .other) : parseDatetime T (.datetime t) = .ok (valueUnit T t) := by
  rw [parse_eq, if_neg ht]; rfl

private theorem temporal_iff {T : TimeTable n} {u : MUnit n} : temporalOrOne T u = true ↔ u = one ∨ ∃ p, u = some p ∧ p.exps = T.sec := by
  unfold temporalOrOne
  cases u with
  | none => simp
  | some p => simp

private theorem value_temporal {T : TimeTable n} (hT : T.Ok) (t : NpTime) : temporalOrOne T (valueUnit T t) = true := by
  rw [temporal_iff]
  unfold valueUnit
  cases h : T.of t with
  | none => exact .inl rfl
  | some u => exact .inr ⟨u, rfl, (of_ne_one hT h).2⟩

/-- The unit that reaches `make_variable`: that of the argument, or that of the dtype, or dimensionless. -/
private def passedUnit (T : TimeTable n) (unit : UnitArg n) (dtype : DtypeArg) : MUnit n :=
  match unit with
  | .unit u => u
  | .default =>
    match dtypeUnit T dtype with
    | some u => some u
    | none => one

private theorem cast_time {T : TimeTable n} (hT : T.Ok) {unit : UnitArg n} {dtype : DtypeArg} (h : dtype.dtype = .ok .void ∨ dtype.dtype = .ok .time) :
    (NoConflict T unit dtype → ∃ d u, castDtypeAndUnit T dtype unit = .ok (d, u) ∧ (d = .void ∨ d = .time) ∧ u.getD (one : MUnit n) = passedUnit T unit dtype) ∧
    (¬ NoConflict T unit dtype → castDtypeAndUnit T dtype unit = .error .invalidArgument) := by
  cases dtype with
  | none =>
    refine ⟨fun _ => ?_, fun hc => absurd (.inl rfl) hc⟩
    cases unit with
    | default => exact ⟨_, _, rfl, .inl rfl, rfl⟩
    | unit u => exact ⟨_, _, rfl, .inl rfl, rfl⟩
  | scipp d =>
    have hd : d = .void ∨ d = .time := by
      rcases h with h | h
      · exact .inl (Except.ok.inj h)
      · exact .inr (Except.ok.inj h)
    refine ⟨fun _ => ?_, fun hc => ?_⟩
    · rcases hd with rfl | rfl
      · cases unit with
        | default => exact ⟨_, _, rfl, .inl rfl, rfl⟩
        | unit u => exact ⟨_, _, rfl, .inl rfl, rfl⟩
      · cases unit with
        | default => exact ⟨_, _, rfl, .inr rfl, rfl⟩
        | unit u => exact ⟨.time, some u, by simp [castDtypeAndUnit, DtypeArg.dtype, DtypeArg.timeUnit], .inr rfl, rfl⟩
    · exfalso
      apply hc
      rcases hd with rfl | rfl
      · exact .inl rfl
      · exact .inr ⟨rfl, by simp, by simp [dtypeUnit]⟩
  | numpy k =>
    cases k with
    | datetime t =>
      have hcast : castDtypeAndUnit T (.numpy (.datetime t)) unit =
          match parseDatetime T (.datetime t) with
          | .error e => .error e
          | .ok deduced =>
            match unit with
            | .default => .ok (.time, some deduced)
            | .unit u => if deduced ≠ one ∧ u ≠ deduced then .error .invalidArgument else .ok (.time, some u) := rfl
      rw [hcast, parse_eq]
      by_cases ht : t = .other
      · subst ht
        refine ⟨fun hc => ?_, fun _ => rfl⟩
        rcases hc with hc | hc
        · cases hc
        · exact absurd rfl hc.2.1
      · rw [if_neg ht]
        cases hu : T.of t with
        | none =>
          refine ⟨fun _ => ?_, fun hc => absurd (.inr ⟨rfl, by simpa using ht, by simp [dtypeUnit, hu]⟩) hc⟩
          cases unit with
          | default => exact ⟨_, _, rfl, .inr rfl, by simp [passedUnit, dtypeUnit, hu]⟩
          | unit u => exact ⟨.time, some u, by simp, .inr rfl, rfl⟩
        | some w =>
          obtain ⟨hw, _⟩ := of_ne_one hT hu
          cases unit with
          | default =>
            exact ⟨fun _ => ⟨_, _, rfl, .inr rfl, by simp [passedUnit, dtypeUnit, hu]⟩, fun hc => absurd (.inr ⟨rfl, by simpa using ht, by simp⟩) hc⟩
          | unit u =>
            constructor
            · rintro (hc | ⟨_, _, hc⟩)
              · cases hc
              · have := hc u w rfl hu
                exact ⟨.time, some u, by simp [this], .inr rfl, rfl⟩
            · intro hc
              have hne : u ≠ some w := by
                intro he
                apply hc
                refine .inr ⟨rfl, by simpa using ht, ?_⟩
                intro u' w' h1 h2
                cases h1
                rw [dtypeUnit, hu] at h2
                cases h2
                exact he
              simp [hw, hne]
    | _ =>
      exfalso
      rcases h with h | h <;> (simp only [DtypeArg.dtype, ofNumpy] at h; first | cases h | (split_ifs at h <;> cases h))

private theorem passed_temporal {T : TimeTable n} (hT : T.Ok) {unit : UnitArg n} {dtype : DtypeArg} :
    temporalOrOne T (passedUnit T unit dtype) = true ↔ TimeOrOne T unit := by
  unfold passedUnit TimeOrOne
  cases unit with
  | unit u =>
    dsimp only
    rw [temporal_iff]
    exact ⟨fun h v hv => by cases hv; exact h, fun h => h u rfl⟩
  | default =>
    refine ⟨fun _ => by simp, fun _ => ?_⟩
    dsimp only
    rw [temporal_iff]
    cases hd : dtypeUnit T dtype with
    | none => exact .inl rfl
    | some u =>
      refine .inr ⟨u, rfl, ?_⟩
      unfold dtypeUnit at hd
      split at hd
      · exact (of_ne_one hT hd).2
      · cases hd

private theorem passed_wanted {T : TimeTable n} (hT : T.Ok) {unit : UnitArg n} {dtype : DtypeArg} (hc : NoConflict T unit dtype) (ht : TimeOrOne T unit)
    (v : MUnit n) : (if passedUnit T unit dtype = one then v else passedUnit T unit dtype) = chosenUnit T unit dtype v := by
  unfold chosenUnit
  have hone : ∀ u, dtypeUnit T dtype = some u → (some u : MUnit n) ≠ one := by
    intro u hu
    unfold dtypeUnit at hu
    split at hu
    · exact (of_ne_one hT hu).1
    · cases hu
  cases unit with
  | default =>
    unfold passedUnit wanted
    dsimp only
    cases hd : dtypeUnit T dtype with
    | none => simp
    | some u => simp [hone u hd]
  | unit u =>
    unfold passedUnit wanted
    dsimp only
    cases u with
    | none =>
      rcases ht none rfl with h | ⟨p, h, _⟩
      · cases h
      · cases h
    | some p =>
      dsimp only
      by_cases hp : (some p : MUnit n) = one
      · rw [if_pos hp, if_pos hp]
        cases hd : dtypeUnit T dtype with
        | none => rfl
        | some w =>
          exfalso
          rcases hc with hc | ⟨_, _, hc⟩
          · unfold dtypeUnit at hd
            split at hd
            · cases hc
            · cases hd
          · exact hone w hd ((hc _ w rfl hd).symm.trans hp)
      · rw [if_neg hp, if_neg hp]

/-- **C88** (datetimes): an array (or scalar) of datetimes of NumPy is accepted exactly if `unit` and `dtype` are consistent and its values
can be converted to the unit asked for; the result is that of `to_unit`. Without a unit being asked for, the values are taken over. -/
theorem C88_datetimes (T : TimeTable n) (hT : T.Ok) (scalar : Bool) (t : NpTime) (elems : List Int) (unit : UnitArg n) (dtype : DtypeArg)
    (hd : dtype.dtype = .ok .void ∨ dtype.dtype = .ok .time) (r : Created n) :
    create T scalar (some ⟨.buffer, .datetime t⟩) none elems unit dtype = .ok r ↔
      t ≠ .other ∧ NoConflict T unit dtype ∧ TimeOrOne T unit ∧ r.dtype = .time ∧
      toUnit T.sec .timePoint elems (valueUnit T t) (chosenUnit T unit dtype (valueUnit T t)) = .ok (r.times, r.unit) := by
  obtain ⟨c1, c2⟩ := cast_time hT (unit := unit) hd
  have hdv : dtypeOf scalar (some ⟨.buffer, .datetime t⟩) = .ok .time := by cases scalar <;> rfl
  by_cases hc : NoConflict T unit dtype
  · obtain ⟨d, u, e1, e2, e3⟩ := c1 hc
    have hmake : create T scalar (some ⟨.buffer, .datetime t⟩) none elems unit dtype =
        makeTimes T (some ⟨.buffer, .datetime t⟩) none elems (passedUnit T unit dtype) := by
      unfold create
      rw [if_neg (by simp), e1, hdv]
      rcases e2 with rfl | rfl <;> simp [dtypeOf, commonDtype, conversionPossible, defaultUnitFor, e3]
    rw [hmake]
    unfold makeTimes
    by_cases htm : TimeOrOne T unit
    · by_cases ht : t = .other
      · subst ht
        simp [commonUnit, (passed_temporal hT).2 htm, PyObj.hasDatetime, parseDatetime]
      · have hcu : commonUnit T (some ⟨.buffer, .datetime t⟩) (passedUnit T unit dtype) =
            .ok (valueUnit T t, chosenUnit T unit dtype (valueUnit T t)) := by
          have hw := passed_wanted hT hc htm (valueUnit T t)
          simp only [commonUnit, (passed_temporal hT).2 htm, Bool.true_eq_false, if_false, PyObj.hasDatetime, parse_ok T ht]
          rw [← hw]
          split_ifs <;> rfl
        simp only [hcu]
        have hca : checkAssignable T (.datetime t) (valueUnit T t) = .ok () := by
          unfold checkAssignable
          simp only [parse_ok T ht, ne_eq, not_true_eq_false, if_false]
        simp only [hca, Option.isSome_none, Bool.false_eq_true, if_false]
        cases hto : toUnit T.sec .timePoint elems (valueUnit T t) (chosenUnit T unit dtype (valueUnit T t)) with
        | error e => simp
        | ok p =>
          obtain ⟨out, w⟩ := p
          simp only [Except.ok.injEq, Prod.mk.injEq]
          constructor
          · rintro rfl; exact ⟨ht, hc, htm, rfl, rfl, rfl⟩
          · rintro ⟨_, _, _, h4, h5, h6⟩
            cases r
            simp_all
    · have : temporalOrOne T (passedUnit T unit dtype) = false := by
        cases h : temporalOrOne T (passedUnit T unit dtype) with
        | false => rfl
        | true => exact absurd ((passed_temporal hT).1 h) htm
      simp [commonUnit, this, htm]
  · have : create T scalar (some ⟨.buffer, .datetime t⟩) none elems unit dtype = .error .invalidArgument := by
      unfold create
      rw [if_neg (by simp), c2 hc]
    rw [this]
    simp [hc]

/-- **C88** (datetimes from integers): integers given for a dtype of datetimes are taken as they are, in the unit asked for. -/
theorem C88_integers (T : TimeTable n) (hT : T.Ok) (scalar : Bool) (x : PyObj) (b : Nat) (hk : x.kind = .int b) (hb : b = 8 ∨ b = 4)
    (hx : scalar = true → x.cls = .buffer ∨ x.cls = .int) (elems : List Int) (unit : UnitArg n) (dtype : DtypeArg)
    (hd : dtype.dtype = .ok .time) (r : Created n) :
    create T scalar (some x) none elems unit dtype = .ok r ↔
      NoConflict T unit dtype ∧ TimeOrOne T unit ∧ r.dtype = .time ∧ r.times = elems ∧ r.unit = chosenUnit T unit dtype one := by
  obtain ⟨c1, c2⟩ := cast_time hT (unit := unit) (.inr hd)
  have hdv : dtypeOf scalar (some x) = .ok .int64 ∨ dtypeOf scalar (some x) = .ok .int32 := by
    obtain ⟨cls, kind⟩ := x
    simp only at hk
    subst hk
    cases scalar with
    | false => rcases hb with rfl | rfl <;> simp [dtypeOf, ofNumpy]
    | true => rcases hx rfl with h | h <;> (simp only at h; subst h; rcases hb with rfl | rfl <;> simp [dtypeOf, ofNumpy])
  by_cases hc : NoConflict T unit dtype
  · obtain ⟨d, u, e1, e2, e3⟩ := c1 hc
    have hd' : d = .time := by
      rcases e2 with rfl | rfl
      · exfalso
        unfold castDtypeAndUnit at e1
        rw [hd] at e1
        dsimp only at e1
        split at e1
        · cases e1
        · split at e1
          · cases e1
          · split_ifs at e1
            cases e1
      · rfl
    subst hd'
    have hmake : create T scalar (some x) none elems unit dtype = makeTimes T (some x) none elems (passedUnit T unit dtype) := by
      unfold create
      rw [if_neg (by simp), e1]
      rcases hdv with hdv | hdv <;> rw [hdv] <;> simp [dtypeOf, commonDtype, conversionPossible, DT.isInt, defaultUnitFor, e3]
    rw [hmake]
    unfold makeTimes commonUnit
    have hnd : x.hasDatetime = false := by
      obtain ⟨cls, kind⟩ := x
      simp only at hk
      subst hk
      cases cls <;> rfl
    by_cases htm : TimeOrOne T unit
    · rw [if_neg (by rw [(passed_temporal hT).2 htm]; simp)]
      have hw := passed_wanted hT hc htm one
      have hp : passedUnit T unit dtype = chosenUnit T unit dtype one := by
        rw [← hw]
        split_ifs with h
        · exact h
        · rfl
      simp only [hnd, if_true, hk, checkAssignable, Option.isSome_none, Bool.false_eq_true, if_false, hp, toUnit]
      constructor
      · intro h; cases h; exact ⟨hc, htm, rfl, rfl, rfl⟩
      · rintro ⟨_, _, h1, h2, h3⟩
        cases r
        simp_all
    · rw [if_pos (by
        cases h : temporalOrOne T (passedUnit T unit dtype) with
        | false => rfl
        | true => exact absurd ((passed_temporal hT).1 h) htm)]
      simp [htm]
  · have : create T scalar (some x) none elems unit dtype = .error .invalidArgument := by
      unfold create
      rw [if_neg (by simp), c2 hc]
    rw [this]
    simp [hc]

private theorem conv_false {a b : DT} : conversionPossible a b = false ↔ ¬ Convertible a b := by
  rw [← conv_iff]; simp

private theorem cast_other {T : TimeTable n} {unit : UnitArg n} {dtype : DtypeArg} {d : DT} (h : dtype.dtype = .ok d) (hd : d ≠ .time) :
    castDtypeAndUnit T dtype unit = .ok (d, match unit with | .unit u => some u | .default => none) := by
  unfold castDtypeAndUnit
  rw [h]
  cases d <;> first | exact absurd rfl hd | (cases unit <;> rfl)

private theorem dtypeOf_void {scalar : Bool} {x : PyObj} {d : DT} (h : dtypeOf scalar (some x) = .ok d) : d ≠ .void := by
  rintro rfl
  unfold dtypeOf at h
  dsimp only at h
  have : ∀ k, ofNumpy k ≠ .ok .void := by
    intro k hk
    cases k <;> simp only [ofNumpy] at hk <;> first | cases hk | (split_ifs at hk <;> cases hk)
  split_ifs at h
  · exact this _ h
  · cases hc : x.cls <;> rw [hc] at h <;> first | exact this _ h | cases h

private theorem common_iff {values variances : Option PyObj} {scalar : Bool} {dv dw d t : DT} (hv : dtypeOf scalar values = .ok dv)
    (hw : dtypeOf scalar variances = .ok dw) (hsome : values.isSome ∨ variances.isSome) :
    commonDtype dv dw d = .ok t ↔ t = resultType d dv dw ∧ (values.isSome → Convertible dv t) ∧ (variances.isSome → Convertible dw t) ∧
      (d = .void → values.isSome → variances.isSome → dv = dw) := by
  have e1 : dv = .void ↔ values.isSome = false := by
    cases values with
    | none => cases hv; simp
    | some x => simpa using dtypeOf_void hv
  have e2 : dw = .void ↔ variances.isSome = false := by
    cases variances with
    | none => cases hw; simp
    | some x => simpa using dtypeOf_void hw
  generalize values.isSome = a at *
  generalize variances.isSome = b at *
  unfold commonDtype resultType
  cases a with
  | true =>
    have h1 : dv ≠ .void := by simpa using e1
    cases b with
    | true =>
      have h2 : dw ≠ .void := by simpa using e2
      by_cases hd : d = .void
      · subst hd
        by_cases hvw : dv = dw
        · subst hvw
          simp only [if_true, h1, if_false, ne_eq, not_true_eq_false, and_false, Except.ok.injEq, implies_true, and_true, not_false_iff]
          constructor
          · rintro rfl; exact ⟨rfl, fun _ => .inl rfl, fun _ => .inl rfl⟩
          · exact fun h => h.1.symm
        · simp [h1, h2, hvw]
      · by_cases c1 : Convertible dv d
        · by_cases c2 : Convertible dw d
          · simp only [hd, h1, h2, if_false, conv_false, c1, c2, not_true_eq_false, and_false, Except.ok.injEq, ne_eq, not_false_iff, if_true,
              false_implies, and_true]
            constructor
            · rintro rfl; exact ⟨rfl, fun _ => c1, fun _ => c2⟩
            · exact fun h => h.1.symm
          · simp only [hd, h1, h2, if_false, conv_false, c1, c2, not_true_eq_false, and_false, ne_eq, not_false_iff, and_self, if_true,
              reduceCtorEq, false_iff]
            rintro ⟨rfl, _, h, _⟩
            exact c2 (h trivial)
        · simp only [hd, h1, h2, if_false, conv_false, c1, ne_eq, not_false_iff, and_self, if_true, reduceCtorEq, false_iff]
          rintro ⟨rfl, h, _⟩
          exact c1 (h trivial)
    | false =>
      have h2 : dw = .void := by simpa using e2
      subst h2
      by_cases hd : d = .void
      · subst hd
        simp only [if_true, h1, if_false, ne_eq, not_true_eq_false, false_and, Except.ok.injEq, Bool.false_eq_true, false_implies, implies_true,
          and_true, not_false_iff]
        constructor
        · rintro rfl; exact ⟨rfl, fun _ => .inl rfl⟩
        · exact fun h => h.1.symm
      · by_cases c1 : Convertible dv d
        · simp only [hd, h1, if_false, conv_false, c1, not_true_eq_false, and_false, false_and, Except.ok.injEq, ne_eq, not_false_iff, if_true,
              false_implies, and_true, Bool.false_eq_true]
          constructor
          · rintro rfl; exact ⟨rfl, fun _ => c1⟩
          · exact fun h => h.1.symm
        · simp only [hd, h1, if_false, conv_false, c1, ne_eq, not_false_iff, and_self, if_true, reduceCtorEq, false_iff]
          rintro ⟨rfl, h, _⟩
          exact c1 (h trivial)
  | false =>
    have h1 : dv = .void := by simpa using e1
    subst h1
    cases b with
    | false => simp at hsome
    | true =>
      have h2 : dw ≠ .void := by simpa using e2
      by_cases hd : d = .void
      · subst hd
        simp only [if_true, h2, if_false, ne_eq, not_true_eq_false, false_and, Except.ok.injEq, Bool.false_eq_true, false_implies, implies_true,
          and_true, true_and]
        constructor
        · rintro rfl; exact ⟨rfl, fun _ => .inl rfl⟩
        · exact fun h => h.1.symm
      · by_cases c2 : Convertible dw d
        · simp only [hd, h2, if_false, conv_false, c2, not_true_eq_false, and_false, false_and, Except.ok.injEq, ne_eq, not_false_iff, if_true,
              false_implies, and_true, Bool.false_eq_true, true_and]
          constructor
          · rintro rfl; exact ⟨rfl, fun _ => c2⟩
          · exact fun h => h.1.symm
        · simp only [hd, h2, if_false, conv_false, c2, ne_eq, not_false_iff, and_self, if_true, reduceCtorEq, false_iff, not_true_eq_false,
            false_and, Bool.false_eq_true, false_implies, true_and]
          rintro ⟨rfl, h⟩
          exact c2 (h.1 trivial)

private theorem default_eq (t : DT) (ht : t ≠ .void) (hk : ∀ k, t ≠ .structured k) : (defaultUnitFor t : MUnit n) = defaultUnit t := by
  cases t <;> first | rfl | exact absurd rfl ht | exact absurd rfl (hk _) | simp [defaultUnitFor, defaultUnit]

/-- **C88** (dtype): the dtype is the one asked for, else that of the values, else that of the variances. Elements are only converted between
numbers, from integers to datetimes and to Python objects; without a dtype being asked for, values and variances need the same. Only
floating-point numbers have variances. The unit is the given one; else numbers are dimensionless and others have none. -/
theorem C88_dtype (T : TimeTable n) (scalar : Bool) (values variances : Option PyObj) (elems : List Int) (unit : UnitArg n) (dtype : DtypeArg)
    (d dv dw : DT) (hd : dtype.dtype = .ok d) (hs : ∀ k, d ≠ .structured k) (hv : dtypeOf scalar values = .ok dv)
    (hw : dtypeOf scalar variances = .ok dw) (hsome : values.isSome ∨ variances.isSome) (ht : resultType d dv dw ≠ .time)
    (r : Created n) :
    create T scalar values variances elems unit dtype = .ok r ↔
      (values.isSome → Convertible dv r.dtype) ∧ (variances.isSome → Convertible dw r.dtype ∧ (r.dtype = .float64 ∨ r.dtype = .float32)) ∧
      (d = .void → values.isSome → variances.isSome → dv = dw) ∧
      r.dtype = resultType d dv dw ∧ r.unit = givenUnit unit r.dtype ∧ r.times = [] := by
  have hdt : d ≠ .time := by
    rintro rfl
    exact ht (by simp [resultType])
  obtain ⟨x, hx⟩ : ∃ x, x = (match unit with | .unit u => some u | .default => none : Option (MUnit n)) := ⟨_, rfl⟩
  have hx' : ∀ t, x.getD (defaultUnit t) = givenUnit unit t := by
    intro t; subst hx; cases unit <;> rfl
  have hcast := cast_other (T := T) (unit := unit) hd hdt
  rw [← hx] at hcast
  have hsome' : ¬ (values.isNone ∧ variances.isNone) := by
    cases values <;> cases variances <;> simp at hsome ⊢
  have hcreate : create T scalar values variances elems unit dtype =
      (match commonDtype dv dw d with
      | .error e => .error e
      | .ok .time => makeTimes T values variances elems (x.getD (defaultUnitFor .time))
      | .ok d => if variances.isSome ∧ d.canHaveVariances = false then .error .variances else .ok ⟨d, x.getD (defaultUnitFor d), []⟩) := by
    unfold create
    rw [if_neg hsome', hcast]
    cases d with
    | structured k => exact absurd rfl (hs k)
    | _ =>
      simp only [hv, hw]
      generalize commonDtype _ _ _ = c
      rcases c with e | t
      · rfl
      · cases t <;> rfl
  rw [hcreate]
  have hk : ∀ {y : Option PyObj} {q : DT}, dtypeOf scalar y = .ok q → ∀ k, q ≠ .structured k := by
    rintro y _ hq k rfl
    have : ∀ z, ofNumpy z ≠ .ok (.structured k) := by
      intro z hz
      cases z <;> simp only [ofNumpy] at hz <;> first | cases hz | (split_ifs at hz <;> cases hz)
    cases y with
    | none => cases hq
    | some y =>
      unfold dtypeOf at hq
      dsimp only at hq
      split_ifs at hq
      · exact this _ hq
      · cases hc : y.cls <;> rw [hc] at hq <;> first | exact this _ hq | cases hq
  have hrs : ∀ k, resultType d dv dw ≠ .structured k := by
    intro k
    unfold resultType
    split_ifs
    · exact hs k
    · exact hk hv k
    · exact hk hw k
  have hrv : resultType d dv dw ≠ .void := by
    unfold resultType
    split_ifs with h1 h2
    · exact h1
    · exact h2
    · cases variances with
      | some y => exact dtypeOf_void hw
      | none =>
        cases values with
        | some y => exact absurd (not_not.1 h2) (dtypeOf_void hv)
        | none => simp at hsome
  cases hc : commonDtype dv dw d with
  | error e =>
    simp only [reduceCtorEq, false_iff]
    rintro ⟨h1, h2, h3, h4, _⟩
    have := (common_iff (d := d) hv hw hsome).2 ⟨h4, h1, fun h => (h2 h).1, h3⟩
    rw [hc] at this
    cases this
  | ok t =>
    obtain ⟨h4, h1, h2, h3⟩ := (common_iff (d := d) hv hw hsome).1 hc
    have hcan : t.canHaveVariances = true ↔ t = .float64 ∨ t = .float32 := by cases t <;> simp [DT.canHaveVariances]
    have hbranch : (match (Except.ok t : Except Err DT) with
      | .error e => .error e
      | .ok .time => makeTimes T values variances elems (x.getD (defaultUnitFor .time))
      | .ok d => if variances.isSome ∧ d.canHaveVariances = false then .error .variances else .ok ⟨d, x.getD (defaultUnitFor d), []⟩) =
      (if variances.isSome ∧ t.canHaveVariances = false then .error .variances else .ok ⟨t, x.getD (defaultUnitFor t), []⟩ :
        Except Err (Created n)) := by
      cases t with
      | time => exact absurd h4.symm ht
      | _ => rfl
    rw [hbranch, default_eq t (h4 ▸ hrv) (h4 ▸ hrs), hx' t]
    by_cases hvar : variances.isSome = true ∧ t.canHaveVariances = false
    · rw [if_pos hvar]
      simp only [reduceCtorEq, false_iff]
      rintro ⟨_, g2, _, g4, _⟩
      rw [← h4] at g4
      rw [g4] at g2
      have := hcan.2 (g2 hvar.1).2
      rw [hvar.2] at this
      cases this
    · rw [if_neg hvar, Except.ok.injEq]
      constructor
      · rintro rfl
        refine ⟨h1, fun h => ⟨h2 h, hcan.1 ?_⟩, h3, h4, rfl, rfl⟩
        cases hq : t.canHaveVariances with
        | true => rfl
        | false => exact absurd ⟨h, hq⟩ hvar
      · rintro ⟨_, _, _, g4, g5, g6⟩
        rw [← h4] at g4
        obtain ⟨rt, ru, rtt⟩ := r
        simp only at g4 g5 g6
        subst g4 g5 g6
        rfl

/-- **C88** (instants): datetimes keep their instants if a finer unit is asked for, as far as the conversion is exact (C59). -/
theorem C88_instants_partial (T : TimeTable n) (hT : T.Ok) (scalar : Bool) (t : NpTime) (a w : PreciseUnit n) (ht : T.of t = some a)
    (hw : w.exps = T.sec) (ha : a.mult < 86400) (hb : w.mult < 86400) (k : Int) (hk : 1 ≤ k)
    (hs : |roundDouble (a.mult / w.mult) - k| ≤ k / 2 ^ 50) (h6 : k < 1000000 ∨ ∃ j, k = 1000000 * j ∧ j ≤ 2 ^ 40) (hne : w ≠ a)
    (elems : List Int) (hx : ∀ x ∈ elems, |x * k| < 2 ^ 52) :
    create T scalar (some ⟨.buffer, .datetime t⟩) none elems (.unit (some w)) .none = .ok ⟨.time, some w, elems.map (· * k)⟩ := by
  have hw1 : (some w : MUnit n) ≠ one := by
    intro hc
    obtain ⟨i, hi⟩ := hT.time
    have : w = ⟨1, fun _ => 0⟩ := Option.some.inj hc
    rw [this] at hw
    exact hi (congrFun hw i).symm
  have hax : a.exps = T.sec := (of_ne_one hT ht).2
  rw [C88_datetimes T hT scalar t elems (.unit (some w)) .none (.inl rfl)]
  refine ⟨(by rintro rfl; cases ht), .inl rfl, (fun u hu => by cases hu; exact .inr ⟨w, rfl, hw⟩), rfl, ?_⟩
  have hc : chosenUnit T (.unit (some w)) .none (valueUnit T t) = some w := by
    simp [chosenUnit, wanted, hw1]
  have hv : valueUnit T t = some a := by simp [valueUnit, ht]
  rw [hc, hv]
  have hm : ∀ l : List Int, (∀ x ∈ l, |x * k| < 2 ^ 52) →
      l.mapM (convert 64 (factor true (roundDouble (a.mult / w.mult)))) = .ok (l.map (· * k)) := by
    intro l
    induction l with
    | nil => intro _; rfl
    | cons x l ih =>
      intro h
      rw [List.mapM_cons, C59_exact_partial k _ hk hs h6 x (h x (by simp)), ih (fun y hy => h y (by simp [hy]))]
      rfl
  unfold toUnit
  rw [if_neg (by intro h; exact hne (Option.some.inj h))]
  have hq : quickConvert a w = some (roundDouble (a.mult / w.mult)) := by
    unfold quickConvert
    simp [hax, hw]
  simp only [hq, greaterThanDays, hax, hw, ne_eq, not_true_eq_false, if_false, if_true, bind, Except.bind, ge_iff_le, not_le.2 ha, not_le.2 hb,
    decide_false, Bool.false_eq_true, pure, Except.pure, IntType.bits, reduceCtorEq, not_false_iff, decide_true, hm elems hx]

/-- **C88** (change of dtype): `astype` accepts a dtype of datetimes exactly if it has no unit or that of the variable. -/
theorem C88_astype (T : TimeTable n) (hT : T.Ok) (self : MUnit n) (dtype : DtypeArg) (d : DT) :
    astypeDtype T self dtype = .ok d ↔
      dtype.dtype = .ok d ∧ dtype ≠ .numpy (.datetime .other) ∧ ∀ w, dtypeUnit T dtype = some w → self = some w := by
  unfold astypeDtype
  cases dtype with
  | none => simp [castDtypeAndUnit, DtypeArg.dtype, dtypeUnit]
  | scipp e =>
    cases e <;> simp [castDtypeAndUnit, DtypeArg.dtype, DtypeArg.timeUnit, dtypeUnit]
  | numpy k =>
    cases k with
    | datetime t =>
      have hcast : castDtypeAndUnit T (.numpy (.datetime t)) .default =
          match parseDatetime T (.datetime t) with
          | .error e => .error e
          | .ok deduced => .ok (.time, some deduced) := rfl
      rw [hcast, parse_eq]
      by_cases ht : t = .other
      · subst ht; simp
      · rw [if_neg ht]
        cases hu : T.of t with
        | none => simp [DtypeArg.dtype, ofNumpy, dtypeUnit, hu, ht]
        | some w =>
          obtain ⟨hw, _⟩ := of_ne_one hT hu
          by_cases hself : (some w : MUnit n) = self
          · subst hself
            simp [DtypeArg.dtype, ofNumpy, dtypeUnit, hu, ht]
          · simp only [ne_eq, hw, not_false_iff, hself, and_self, if_true, dtypeUnit, hu, reduceCtorEq, false_iff]
            rintro ⟨_, _, h⟩
            exact hself (h w rfl).symm
    | _ =>
      simp only [castDtypeAndUnit, DtypeArg.dtype, ofNumpy, dtypeUnit]
      first
      | (split_ifs <;> simp)
      | simp

/-- **C88** (assignment): values are assigned to datetimes without conversion, so they have to be integers or in the unit of the variable. -/
theorem C88_set (T : TimeTable n) (unit : MUnit n) (values : PyObj) (elems out : List Int) :
    setTimes T unit values elems = .ok out ↔
      out = elems ∧ ((∃ b, values.kind = .int b) ∨ ∃ t, values.kind = .datetime t ∧ t ≠ .other ∧ unit = valueUnit T t) := by
  unfold setTimes checkAssignable
  cases hk : values.kind with
  | datetime t =>
    by_cases ht : t = .other
    · subst ht; simp [parseDatetime]
    · simp only [parse_ok T ht]
      by_cases hu : valueUnit T t = unit
      · simp [hu, ht, eq_comm]
      · simp [hu, ht, Ne.symm hu]
  | int b => simp [eq_comm]
  | _ => simp [parseDatetime]

/-- **C88, where the code deviates**: a list of datetimes is refused if no unit is given, although the array made of it is accepted. -/
theorem C88_wrong_list (T : TimeTable n) (hT : T.Ok) (cls : PyClass) (hcls : cls ≠ .buffer) (t : NpTime) (a : PreciseUnit n) (ht : T.of t = some a)
    (elems : List Int) :
    create T false (some ⟨cls, .datetime t⟩) none elems .default .none = .error .invalidArgument ∧
    create T false (some ⟨.buffer, .datetime t⟩) none elems .default .none = .ok ⟨.time, some a, elems⟩ := by
  have hto : t ≠ .other := by rintro rfl; cases ht
  have hv : valueUnit T t = some a := by simp [valueUnit, ht]
  obtain ⟨hne, _⟩ := of_ne_one hT ht
  constructor
  · have hnd : (PyObj.mk cls (.datetime t)).hasDatetime = false := by cases cls <;> first | exact absurd rfl hcls | rfl
    simp only [create, Option.isNone_some, Bool.false_eq_true, false_and, if_false, castDtypeAndUnit, DtypeArg.dtype, dtypeOf, if_true, ofNumpy,
      commonDtype, reduceCtorEq, ne_eq, not_true_eq_false, makeTimes, commonUnit, Option.getD_none, defaultUnitFor, hnd, checkAssignable, parse_ok T hto, hv]
    simp [temporalOrOne, hne]
  · rw [C88_datetimes T hT false t elems .default .none (.inl rfl)]
    refine ⟨hto, .inl rfl, by simp [TimeOrOne], rfl, ?_⟩
    simp [chosenUnit, wanted, dtypeUnit, hv, toUnit]

/-- **C88, where the code deviates**: `unit='dimensionless'` is ignored for datetimes that have a unit. -/
theorem C88_wrong_dimensionless (T : TimeTable n) (hT : T.Ok) (scalar : Bool) (t : NpTime) (a : PreciseUnit n) (ht : T.of t = some a) (elems : List Int) :
    create T scalar (some ⟨.buffer, .datetime t⟩) none elems (.unit one) .none = .ok ⟨.time, some a, elems⟩ := by
  have hto : t ≠ .other := by rintro rfl; cases ht
  have hv : valueUnit T t = some a := by simp [valueUnit, ht]
  rw [C88_datetimes T hT scalar t elems _ .none (.inl rfl)]
  refine ⟨hto, .inl rfl, fun u hu => by cases hu; exact .inl rfl, rfl, ?_⟩
  have : chosenUnit T (.unit one) .none (valueUnit T t) = valueUnit T t := by
    show (match (if (one : MUnit n) = one then dtypeUnit T .none else _) with | some u => some u | none => valueUnit T t) = _
    simp [dtypeUnit]
  rw [this, hv]
  simp [toUnit]

/-- **C88, where the code deviates**: numbers of NumPy of another size than 4 or 8 bytes, or unsigned, are refused even if a dtype is asked for. -/
theorem C88_wrong_sizes (T : TimeTable n) (scalar : Bool) (k : NpKind) (hk : k = .unsupported ∨ ∃ b, (k = .int b ∨ k = .float b) ∧ b ≠ 4 ∧ b ≠ 8)
    (variances : Option PyObj) (elems : List Int) (unit : UnitArg n) (dtype : DtypeArg) (hd : ∀ j, dtype.dtype ≠ .ok (.structured j)) (r : Created n) :
    create T scalar (some ⟨.buffer, k⟩) variances elems unit dtype ≠ .ok r := by
  have hv : dtypeOf scalar (some ⟨.buffer, k⟩) = .error .runtime := by
    rcases hk with rfl | ⟨b, rfl | rfl, h4, h8⟩ <;> cases scalar <;> simp [dtypeOf, ofNumpy, *]
  unfold create
  rw [if_neg (by simp), hv]
  cases hc : castDtypeAndUnit T dtype unit with
  | error e => simp
  | ok p =>
    obtain ⟨d, u⟩ := p
    cases d with
    | structured j =>
      exfalso
      apply hd j
      unfold castDtypeAndUnit at hc
      cases he : dtype.dtype with
      | error e => rw [he] at hc; cases hc
      | ok q =>
        rw [he] at hc
        cases q with
        | time =>
          dsimp only at hc
          cases hp : dtype.timeUnit T with
          | error e => rw [hp] at hc; cases hc
          | ok y =>
            rw [hp] at hc
            dsimp only at hc
            cases unit with
            | default => cases hc
            | unit u => dsimp only at hc; split_ifs at hc; cases hc
        | _ => cases unit <;> cases hc <;> rfl
    | _ => simp

private def tU (m : ℚ) : PreciseUnit 1 := ⟨roundDouble m, fun _ => 1⟩

private def tT : TimeTable 1 :=
  ⟨fun _ => 1, tU 1, tU (1 / 1000000), tU (1 / 1000000000), tU 60, tU (1 / 1000), tU 3600, tU 86400, tU 2629746, tU 31556952⟩

private theorem tT_ok : tT.Ok := ⟨⟨0, by decide⟩, by
  intro u hu
  simp only [tT, List.mem_cons, List.not_mem_nil, or_false] at hu
  rcases hu with rfl | rfl | rfl | rfl | rfl | rfl | rfl | rfl | rfl <;> rfl⟩

/-- **C88, where the code deviates**: "not a time" is converted like a number: from nanoseconds to microseconds it becomes a date in 1677; from
seconds to nanoseconds the behaviour is undefined. -/
theorem C88_wrong_nat :
    ((create tT false (some ⟨.buffer, .datetime .ns⟩) none [-9223372036854775808] (.unit (some tT.us)) .none).map (·.times) =
      .ok [-9223372036854776]) ∧
    (create tT false (some ⟨.buffer, .datetime .s⟩) none [-9223372036854775808] (.unit (some tT.ns)) .none).map (·.times) = .error .ub := by
  constructor <;> decide +kernel

example := (C88_datetimes tT tT_ok false .ms [1, -2] .default (.numpy (.datetime .ms)) (.inr rfl) ⟨.time, some tT.ms, [1, -2]⟩).2
  ⟨by decide, .inr ⟨rfl, by simp, by simp⟩, by simp [TimeOrOne], rfl, by decide +kernel⟩

example := (C88_integers tT tT_ok true ⟨.int, .int 8⟩ 8 rfl (.inl rfl) (fun _ => .inr rfl) [17] (.unit (some tT.us)) (.scipp .time) rfl
  ⟨.time, some tT.us, [17]⟩).2 ⟨.inr ⟨rfl, by simp, by simp [dtypeUnit]⟩, fun u hu => by cases hu; exact .inr ⟨_, rfl, rfl⟩, rfl, rfl, by decide +kernel⟩

example := (C88_dtype tT false (some ⟨.other, .int 8⟩) (some ⟨.buffer, .float 8⟩) [] .default (.scipp .float32) .float32 .int64 .float64 rfl
  (by simp) rfl rfl (.inl rfl) (by decide) ⟨.float32, one, []⟩).2
  ⟨fun _ => by simp [Convertible], fun _ => by simp [Convertible], by simp, rfl, rfl, rfl⟩

example := C88_instants_partial tT tT_ok false .s tT.s tT.ns rfl rfl (by decide +kernel) (by decide +kernel) 1000000000 (by decide) (by decide +kernel)
  (.inr ⟨1000, by decide, by decide⟩) (by decide +kernel) [1, -4000000] (by decide)

example := (C88_astype tT tT_ok (some tT.s) (.numpy (.datetime .s)) .time).2 ⟨rfl, by simp, fun w h => by cases h; rfl⟩

example := (C88_set tT (some tT.s) ⟨.other, .datetime .s⟩ [5] [5]).2 ⟨rfl, .inr ⟨.s, rfl, by decide, rfl⟩⟩

example := C88_wrong_list tT tT_ok .other (by decide) .ns tT.ns rfl [3]

example := C88_wrong_dimensionless tT tT_ok false .ns tT.ns rfl [3]

example := C88_wrong_sizes tT false (.int 2) (.inr ⟨2, .inl rfl, by decide, by decide⟩) none [] .default (.scipp .int64) (by simp [DtypeArg.dtype])

end Scipp.Props
