import Verif.Spec.UnitDict
import Mathlib.Data.List.Nodup
import Mathlib.Tactic.SplitIfs
/-!
C104: units as dicts.
-/
namespace Scipp.Props
open Scipp UnitDict

private theorem lookup_none {α β : Type} {k : String} {q : String × α → Bool} {h : α → β} :
    ∀ {ks : List String} {vs : List α}, k ∉ ks → (((ks.zip vs).filter q).map fun p => (p.1, h p.2)).lookup k = none := by
  intro ks vs hk
  rw [List.lookup_eq_none_iff]
  intro p hp
  obtain ⟨a, ha, rfl⟩ := List.mem_map.mp hp
  have := (List.of_mem_zip (List.mem_of_mem_filter ha)).1
  simp only [beq_eq_false_iff_ne, ne_eq, bne_iff_ne]
  rintro rfl
  exact hk this

private theorem lookup_at {α β : Type} {q : α → Bool} {h : α → β} :
    ∀ {ks : List String} {vs : List α}, ks.Nodup → (hl : ks.length = vs.length) → ∀ i (hi : i < ks.length),
      (((ks.zip vs).filter fun p => q p.2).map fun p => (p.1, h p.2)).lookup ks[i] = if q (vs[i]'(hl ▸ hi)) then some (h (vs[i]'(hl ▸ hi))) else none := by
  intro ks
  induction ks with
  | nil => intro vs _ _ i hi; exact absurd hi (Nat.not_lt_zero _)
  | cons k ks ih =>
    intro vs hn hl i hi
    cases vs with
    | nil => cases hl
    | cons v vs =>
      obtain ⟨hk, hn'⟩ := List.nodup_cons.mp hn
      cases i with
      | zero =>
        by_cases hq : q v
        · simp [List.filter_cons, hq]
        · simp only [List.zip_cons_cons, List.filter_cons, hq, List.getElem_cons_zero, Bool.false_eq_true, ↓reduceIte]
          exact lookup_none hk
      | succ i =>
        have := ih hn' (Nat.succ.inj hl) i (Nat.lt_of_succ_lt_succ hi)
        have hne : ks[i]'(Nat.lt_of_succ_lt_succ hi) ≠ k := fun he => hk (he ▸ List.getElem_mem _)
        by_cases hq : q v
        · simp only [List.zip_cons_cons, List.filter_cons, hq, List.getElem_cons_succ, ↓reduceIte, List.map_cons, List.lookup_cons,
            beq_eq_false_iff_ne.mpr hne]
          exact this
        · simp only [List.zip_cons_cons, List.filter_cons, hq, List.getElem_cons_succ, Bool.false_eq_true, ↓reduceIte]
          exact this

private theorem mapM_ok {α β : Type} {f : α → Except Err β} : ∀ {ks : List α} {vs : List β}, (hl : ks.length = vs.length) →
    (∀ i (hi : i < ks.length), f ks[i] = .ok (vs[i]'(hl ▸ hi))) → ks.mapM f = .ok vs := by
  intro ks
  induction ks with
  | nil => intro vs hl _; cases vs with | nil => rfl | cons _ _ => cases hl
  | cons k ks ih =>
    intro vs hl h
    cases vs with
    | nil => cases hl
    | cons v vs =>
      have h0 : f k = .ok v := h 0 (Nat.zero_lt_succ _)
      have hr := ih (Nat.succ.inj hl) fun i hi => h (i + 1) (Nat.succ_lt_succ hi)
      rw [List.mapM_cons, h0]
      simp only [bind, Except.bind, hr]; rfl

private theorem mapM_inv {α β : Type} {f : α → Except Err β} : ∀ {ks : List α} {vs : List β}, ks.mapM f = .ok vs →
    ∃ hl : ks.length = vs.length, ∀ i (hi : i < ks.length), f ks[i] = .ok (vs[i]'(hl ▸ hi)) := by
  intro ks
  induction ks with
  | nil => intro vs h; cases h; exact ⟨rfl, fun i hi => absurd hi (Nat.not_lt_zero _)⟩
  | cons k ks ih =>
    intro vs h
    rw [List.mapM_cons] at h
    simp only [bind, Except.bind] at h
    cases hk : f k with
    | error e => rw [hk] at h; cases h
    | ok v =>
      rw [hk] at h
      dsimp only at h
      cases hr : ks.mapM f with
      | error e => rw [hr] at h; cases h
      | ok rs =>
        rw [hr] at h
        cases h
        obtain ⟨hl, hh⟩ := ih hr
        refine ⟨by simpa using hl, ?_⟩
        intro i hi
        cases i with
        | zero => exact hk
        | succ i => exact hh i (Nat.lt_of_succ_lt_succ hi)

private theorem wrap_fits {w : Nat} {n : Int} (h : Fits w n) : wrap w n = n := by
  obtain ⟨h0, h1, h2⟩ := h
  obtain ⟨v, rfl⟩ : ∃ v, w = v + 1 := ⟨w - 1, by omega⟩
  unfold wrap
  rw [Nat.add_sub_cancel] at h1 h2 ⊢
  rw [Int.emod_eq_of_lt (by omega) (by rw [Int.pow_succ]; omega)]
  omega

private theorem fits_int {w : Nat} {n : Int} (h : Fits w n) (hw : w ≤ 31) : -2 ^ 31 ≤ n ∧ n < 2 ^ 31 := by
  obtain ⟨h0, h1, h2⟩ := h
  have : (2 : Int) ^ (w - 1) ≤ 2 ^ 31 := by
    have : (2 : Nat) ^ (w - 1) ≤ 2 ^ 31 := Nat.pow_le_pow_right (by omega) (by omega)
    exact_mod_cast this
  omega

/-- **C104** (round trip): every unit without commodity is unchanged by `to_dict` followed by `from_dict`: multiplier, powers and flags. -/
theorem C104_round_trip (widths : List Nat) (u : U) (h : Representable widths u) (hc : u.commodity = 0) :
    ∃ d, toDict u = .ok d ∧ fromDict widths d = .ok u := by
  refine ⟨_, by unfold toDict; rw [if_neg (by simpa using hc)], ?_⟩
  obtain ⟨mult, powers, flags, com⟩ := u
  obtain ⟨hp, hw, hf, hs, hfit⟩ := h
  dsimp only at *
  subst hc
  have hbn : bases.Nodup := by decide
  have hfn : flagNames.Nodup := by decide
  have hbl : bases.length = powers.length := by rw [hp]; rfl
  have hfl : flagNames.length = flags.length := by rw [hf]; rfl
  have hP := lookup_at (q := fun v : Int => decide (v ≠ 0)) (h := Scalar.int) hbn hbl
  have hF := lookup_at (q := fun v : Bool => v) (h := fun _ => Obj.scalar (.bool true)) hfn hfl
  generalize hPd : (((bases.zip powers).filter fun p => decide (p.2 ≠ 0)).map fun p => (p.1, Scalar.int p.2)) = P at hP
  generalize hFd : (((flagNames.zip flags).filter fun p => p.2).map fun p => (p.1, Obj.scalar (.bool true))) = F at hF
  have hnoF : ∀ k, k ∉ flagNames → F.lookup k = none := by intro k hk; rw [← hFd]; exact lookup_none (q := fun p => p.2) (h := fun _ => Obj.scalar (.bool true)) hk
  have hpow : ∀ tail : PyDict Obj, tail = (if P.isEmpty then [] else [("powers", Obj.dict P)]) →
      ∀ d, d = [("__version__", Obj.scalar (.int 2)), ("multiplier", .scalar (.float mult))] ++ F ++ tail → fromDict widths d = .ok ⟨mult, powers, flags, 0⟩ := by
    intro tail ht d hd
    have hpo : powersOf d = .ok P := by
      unfold powersOf
      rw [hd, List.lookup_append, List.lookup_append, hnoF "powers" (by decide), ht]
      cases P with
      | nil => rfl
      | cons a l => rfl
    have hver : checkVersion d = .ok () := by rw [hd]; rfl
    have hmul : item d "multiplier" = .ok (.scalar (.float mult)) := by rw [hd]; rfl
    have hpm : bases.mapM (getInt P) = .ok powers := by
      apply mapM_ok hbl
      intro i hi
      unfold getInt
      rw [hP i hi]
      have hi' : i < 10 := hi
      have := fits_int (hfit i hi') (hs _ (List.getElem_mem _))
      by_cases h0 : powers[i]'(hbl ▸ hi) = 0
      · simp [h0]
      · simp only [h0, ne_eq, not_false_eq_true, decide_true, ↓reduceIte, castInt]
        rw [if_pos this]
    have hfm : flagNames.map (getBool d) = flags := by
      apply List.ext_getElem
      · simpa using hfl
      · intro i hi hi'
        have hi2 : i < flagNames.length := by simpa using hi
        rw [List.getElem_map]
        unfold getBool
        have hne : ∀ k ∈ flagNames, k ≠ "__version__" ∧ k ≠ "multiplier" ∧ k ≠ "powers" := by decide
        obtain ⟨n1, n2, n3⟩ := hne _ (List.getElem_mem hi2)
        have htail : tail.lookup flagNames[i] = none := by
          rw [ht]; split_ifs
          · rfl
          · simp [List.lookup_cons, beq_eq_false_iff_ne.mpr n3]
        have hlk : d.lookup flagNames[i] = if flags[i] then some (Obj.scalar (.bool true)) else none := by
          rw [hd, List.lookup_append, List.lookup_append, htail, hF i hi2]
          simp [List.lookup_cons, beq_eq_false_iff_ne.mpr n1, beq_eq_false_iff_ne.mpr n2]
        rw [hlk]
        cases flags[i] <;> rfl
    have hwr : List.zipWith wrap widths powers = powers := by
      apply List.ext_getElem
      · rw [List.length_zipWith, hw, hp]; rfl
      · intro i hi hi'
        rw [List.getElem_zipWith]
        exact wrap_fits (hfit i (hp ▸ hi'))
    simp only [fromDict, hver, hpo, hpm, hmul, bind, Except.bind, Obj.asScalar, castDouble, pure, Except.pure, hwr, hfm]
  exact hpow _ rfl _ (by rw [← hPd, ← hFd])

/-- kg·m²/s² · 1000 per unit. -/
example : ∃ d, toDict ⟨1000, [2, 1, -2, 0, 0, 0, 0, 0, 0, 0], [true, false, false, false], 0⟩ = .ok d ∧
    fromDict libraryWidths d = .ok ⟨1000, [2, 1, -2, 0, 0, 0, 0, 0, 0, 0], [true, false, false, false], 0⟩ :=
  C104_round_trip libraryWidths _ ⟨rfl, rfl, rfl, by decide, by unfold Fits; decide⟩ rfl

/-- **C104** (nothing is lost): units with the same dict are the same. -/
theorem C104_distinct (widths : List Nat) (u v : U) (hu : Representable widths u) (hv : Representable widths v) (h : toDict u = toDict v)
    (hok : (toDict u).isOk = true) : u = v := by
  have hc : ∀ x : U, (toDict x).isOk = true → x.commodity = 0 := by
    intro x hx
    unfold toDict at hx
    split_ifs at hx with hx'
    · cases hx
    · simpa using hx'
  obtain ⟨d, h1, h2⟩ := C104_round_trip widths u hu (hc u hok)
  obtain ⟨e, h3, h4⟩ := C104_round_trip widths v hv (hc v (h ▸ hok))
  rw [h1, h3] at h
  cases h
  rw [h2] at h4
  exact Except.ok.inj h4

example : toDict ⟨1, [1, 0, 0, 0, 0, 0, 0, 0, 0, 0], [false, false, false, false], 0⟩ ≠ toDict ⟨1, [0, 0, 1, 0, 0, 0, 0, 0, 0, 0], [false, false, false, false], 0⟩ := by
  decide +kernel

/-- **C104** (commodities): units with a commodity are refused. -/
theorem C104_commodity (u : U) (h : u.commodity ≠ 0) : toDict u = .error .invalidArgument := by
  unfold toDict; rw [if_pos h]

example : toDict ⟨1, [], [], 7⟩ = .error .invalidArgument := C104_commodity _ (by decide)

/-- **C104** (versions): dicts without version or with a version other than 1 and 2 are refused, and the versions 1 and 2 are read alike. -/
theorem C104_version (widths : List Nat) (d : PyDict Obj) :
    (d.lookup "__version__" = none → fromDict widths d = .error .notFound) ∧
    (∀ n : Int, d.lookup "__version__" = some (.scalar (.int n)) → n ≠ 1 → n ≠ 2 → ∃ e, fromDict widths d = .error e) ∧
    fromDict widths (("__version__", .scalar (.int 1)) :: d) = fromDict widths (("__version__", .scalar (.int 2)) :: d) := by
  refine ⟨?_, ?_, ?_⟩
  · intro h
    simp [fromDict, checkVersion, item, h, bind, Except.bind]
  · intro n h h1 h2
    have : ∃ e, checkVersion d = .error e := by
      simp only [checkVersion, item, h, bind, Except.bind, Obj.asScalar, castInt]
      split_ifs with hr
      · exact ⟨.invalidArgument, by simp [h1, h2]⟩
      · exact ⟨.runtime, rfl⟩
    obtain ⟨e, he⟩ := this
    exact ⟨e, by simp only [fromDict, he, bind, Except.bind]⟩
  · have hb : ∀ n ∈ flagNames, ∀ v : Int, getBool (("__version__", .scalar (.int v)) :: d) n = getBool d n := by
      intro n hn v
      have : ∀ k ∈ flagNames, k ≠ "__version__" := by decide
      unfold getBool
      rw [List.lookup_cons, beq_eq_false_iff_ne.mpr (this n hn)]
    have hm : ∀ v : Int, flagNames.map (getBool (("__version__", .scalar (.int v)) :: d)) = flagNames.map (getBool d) :=
      fun v => List.map_congr_left fun n hn => hb n hn v
    unfold fromDict
    rw [hm, hm]
    rfl

example : fromDict libraryWidths [("__version__", .scalar (.int 3)), ("multiplier", .scalar (.float 1))] = .error .invalidArgument := rfl

/-- **C104** (`from_dict`; the part that holds): if the powers are in the range of the units library, the unit has the powers, multiplier and flags given in the
dict. -/
theorem C104_from_dict_partial (widths : List Nat) (d : PyDict Obj) (u : U) (h : fromDict widths d = .ok u) (hw : widths.length = 10)
    (i : Nat) (hi : i < 10) (n : Int) (hn : givenPower d (bases[i]'hi) = some (.int n)) (hf : Fits (widths[i]'(hw ▸ hi)) n) :
    u.powers[i]? = some n ∧ (∀ x, d.lookup "multiplier" = some (.scalar (.float x)) → u.mult = x) ∧
    (∀ j (hj : j < 4) (b : Bool), d.lookup (flagNames[j]'hj) = some (.scalar (.bool b)) → u.flags[j]? = some b) ∧
    (∀ j (hj : j < 4), d.lookup (flagNames[j]'hj) = none → u.flags[j]? = some false) ∧ u.commodity = 0 := by
  unfold fromDict at h
  simp only [bind, Except.bind] at h
  cases h1 : checkVersion d with
  | error e => rw [h1] at h; cases h
  | ok _ =>
  rw [h1] at h; dsimp only at h
  cases h2 : powersOf d with
  | error e => rw [h2] at h; cases h
  | ok p =>
  rw [h2] at h; dsimp only at h
  cases h3 : bases.mapM (getInt p) with
  | error e => rw [h3] at h; cases h
  | ok ps =>
  rw [h3] at h; dsimp only at h
  cases h4 : item d "multiplier" with
  | error e => rw [h4] at h; cases h
  | ok m =>
  rw [h4] at h; dsimp only at h
  cases h5 : m.asScalar with
  | error e => rw [h5] at h; cases h
  | ok s =>
  rw [h5] at h; dsimp only at h
  cases h6 : castDouble s with
  | error e => rw [h6] at h; cases h
  | ok x =>
  rw [h6] at h
  cases h
  obtain ⟨hl, hall⟩ := mapM_inv h3
  have hflag : ∀ j (hj : j < 4), (flagNames.map (getBool d))[j]? = some (getBool d (flagNames[j]'hj)) := by
    intro j hj
    rw [List.getElem?_map, List.getElem?_eq_getElem (show j < flagNames.length from hj)]; rfl
  refine ⟨?_, ?_, ?_, ?_, rfl⟩
  · have hpl : ps.length = 10 := hl.symm
    rw [List.getElem?_eq_getElem (by simp; omega), List.getElem_zipWith]
    have := hall i hi
    have hg : getInt p (bases[i]'hi) = castInt (.int n) := by
      unfold givenPower at hn
      unfold powersOf at h2
      cases hlk : d.lookup "powers" with
      | none =>
        rw [hlk] at hn h2
        cases h2
        cases hn
        rfl
      | some o =>
        rw [hlk] at hn h2
        cases o with
        | scalar _ => cases h2
        | dict q =>
          cases h2
          dsimp only at hn
          unfold getInt
          cases hq : p.lookup (bases[i]'hi) with
          | none => rw [hq] at hn; cases hn; rfl
          | some y => rw [hq] at hn; cases hn; rfl
    rw [hg] at this
    simp only [castInt] at this
    split_ifs at this with hr
    cases this
    exact congrArg some (wrap_fits hf)
  · intro y hy
    unfold item at h4
    rw [hy] at h4
    cases h4
    cases h5
    cases h6
    rfl
  · intro j hj b hb
    show (flagNames.map (getBool d))[j]? = some b
    rw [hflag j hj]
    unfold getBool
    rw [hb]
    rfl
  · intro j hj hb
    show (flagNames.map (getBool d))[j]? = some false
    rw [hflag j hj]
    unfold getBool
    rw [hb]

example : givenPower [("__version__", .scalar (.int 1)), ("multiplier", .scalar (.float 1)), ("powers", .dict [("s", .int (-2))])] "s" = some (.int (-2)) ∧
    fromDict libraryWidths [("__version__", .scalar (.int 1)), ("multiplier", .scalar (.float 1)), ("powers", .dict [("s", .int (-2))])] =
      .ok ⟨1, [0, 0, -2, 0, 0, 0, 0, 0, 0, 0], [false, false, false, false], 0⟩ := ⟨rfl, rfl⟩

/-- **C104 is violated** (powers out of range): `from_dict` does not check powers, m⁹ is read as m⁻⁷. -/
theorem C104_wrong_power :
    fromDict libraryWidths [("__version__", .scalar (.int 2)), ("multiplier", .scalar (.float 1)), ("powers", .dict [("m", .int 9)])] =
      .ok ⟨1, [-7, 0, 0, 0, 0, 0, 0, 0, 0, 0], [false, false, false, false], 0⟩ := rfl

/-- **C104 is violated** (unknown names): names of base units that are not known are ignored, here the result is dimensionless. -/
theorem C104_wrong_name :
    fromDict libraryWidths [("__version__", .scalar (.int 2)), ("multiplier", .scalar (.float 1)), ("powers", .dict [("meter", .int 1)])] =
      .ok ⟨1, [0, 0, 0, 0, 0, 0, 0, 0, 0, 0], [false, false, false, false], 0⟩ := rfl

/-- Entries of other types than those written by `to_dict` are understood as the numbers they are in Python, or refused: powers, multiplier and flags. -/
theorem C104_numbers (s : Scalar) (powers : PyDict Scalar) (d : PyDict Obj) (name : String) (hp : powers.lookup name = some s)
    (hd : d.lookup name = some (.scalar s)) :
    (∀ n, getInt powers name = .ok n → (n : ℚ) = pyNumber s) ∧ (∀ x, castDouble s = .ok x → x = pyNumber s) ∧ (∃ x, castDouble s = .ok x) ∧
      (getBool d name = true ↔ pyNumber s ≠ 0) := by
  simp only [getInt, getBool, hp, hd]
  cases s with
  | int n =>
    refine ⟨fun m h => ?_, fun x h => ?_, ⟨_, rfl⟩, ?_⟩
    · simp only [castInt] at h
      split at h
      · cases h; rfl
      · cases h
    · cases h; rfl
    · simp [castBool, pyNumber]
  | float x =>
    refine ⟨fun m h => ?_, fun x h => ?_, ⟨_, rfl⟩, ?_⟩
    · cases h
    · cases h; rfl
    · simp [castBool, pyNumber]
  | bool b =>
    cases b
    · refine ⟨fun m h => ?_, fun x h => ?_, ⟨_, rfl⟩, ?_⟩
      · cases h; rfl
      · cases h; rfl
      · simp [castBool, pyNumber]
    · refine ⟨fun m h => ?_, fun x h => ?_, ⟨_, rfl⟩, ?_⟩
      · cases h; rfl
      · cases h; rfl
      · simp [castBool, pyNumber]

example : getInt [("m", .int 2), ("s", .bool true)] "s" = .ok 1 ∧ getBool [("per_unit", .scalar (.float (1 / 2)))] "per_unit" = true :=
  ⟨rfl, (C104_numbers (.float (1 / 2)) [("per_unit", .float (1 / 2))] _ "per_unit" rfl rfl).2.2.2.2 (by decide +kernel)⟩

end Scipp.Props
