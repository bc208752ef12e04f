import Verif.Model.Xarray
import Mathlib.Data.List.Nodup
import Mathlib.Data.List.Forall2
/-!
C127: conversion to and from Xarray.
-/
namespace Scipp.Props
open Scipp Scipp.Xarray

/-- What is left of a variable: no variances, default unit instead of none. -/
def c127Var {V U : Type} (dflt : V → Option U) (aligned : Bool) (v : SVar V U) : SVar V U :=
  ⟨v.dims, v.values, none, v.unit.or (dflt v.values), false, aligned⟩

theorem toVar_ok {V U S : Type} (str : U → S) (v : SVar V U) (x : XVar V S) : toVar str v = .ok x ↔ v.binned = false ∧ x = ⟨v.dims, v.values, v.unit.map str⟩ := by
  unfold toVar
  cases v.binned with
  | true => simp
  | false => simp [eq_comm]

theorem fromVar_toVar {V U S : Type} (str : U → S) (parse : S → Except Err U) (dflt : V → Option U) (hp : ∀ u, parse (str u) = .ok u) (v : SVar V U) :
    fromVar parse dflt (⟨v.dims, v.values, v.unit.map str⟩ : XVar V S) = .ok (c127Var dflt true v) := by
  unfold fromVar c127Var
  cases v.unit with
  | none => rfl
  | some u => simp [hp]

theorem toCoords_ok {V U S : Type} (str : U → S) (sizes : Sizes) (l : List (Dim × SVar V U)) (xs : List (Dim × XVar V S)) :
    toCoords str sizes l = .ok xs ↔ (∀ c ∈ l, (∀ p ∈ c.2.dims, Sizes.isEdges sizes c.2.dims p.1 = false) ∧ c.2.binned = false) ∧
      xs = l.map (fun c => (c.1, ⟨c.2.dims, c.2.values, c.2.unit.map str⟩)) := by
  induction l generalizing xs with
  | nil =>
    refine ⟨fun h => ⟨by simp, (Except.ok.inj h).symm⟩, ?_⟩
    rintro ⟨_, rfl⟩
    rfl
  | cons c l ih =>
    obtain ⟨key, coord⟩ := c
    simp only [toCoords]
    by_cases he : coord.dims.any (fun p => Sizes.isEdges sizes coord.dims p.1) = true
    · rw [if_pos he]
      constructor
      · intro h; cases h
      · rintro ⟨h, _⟩
        obtain ⟨p, hp, hpe⟩ := List.any_eq_true.1 he
        rw [(h (key, coord) (by simp)).1 p hp] at hpe
        cases hpe
    · rw [if_neg he]
      have he' : ∀ p ∈ coord.dims, Sizes.isEdges sizes coord.dims p.1 = false := by
        intro p hp
        cases hq : Sizes.isEdges sizes coord.dims p.1 with
        | false => rfl
        | true => exact absurd (List.any_eq_true.2 ⟨p, hp, hq⟩) he
      cases hv : toVar str coord with
      | error e =>
        constructor
        · intro h; cases h
        · rintro ⟨h, _⟩
          have := (toVar_ok str coord _).2 ⟨(h (key, coord) (by simp)).2, rfl⟩
          rw [hv] at this; cases this
      | ok x =>
        obtain ⟨hb, rfl⟩ := (toVar_ok str coord x).1 hv
        cases hr : toCoords str sizes l with
        | error e =>
          constructor
          · intro h; cases h
          · rintro ⟨h, _⟩
            have := (ih _).2 ⟨fun c hc => h c (by simp [hc]), rfl⟩
            rw [hr] at this; cases this
        | ok ys =>
          obtain ⟨h1, rfl⟩ := (ih ys).1 hr
          constructor
          · intro h
            refine ⟨?_, (Except.ok.inj h).symm⟩
            intro c hc
            rcases List.mem_cons.1 hc with rfl | hc
            · exact ⟨he', hb⟩
            · exact h1 c hc
          · rintro ⟨_, rfl⟩; rfl

theorem toArr_eq {V U S : Type} (str : U → S) (da : SArr V U) (hn : (da.coords.map (·.1)).Nodup) (x : XArr V S) :
    toArr str da = .ok x ↔ (da.data.binned = false ∧ ∀ c ∈ da.coords, c.2.binned = false ∧ (∀ p ∈ c.2.dims, Sizes.isEdges da.data.dims c.2.dims p.1 = false) ∧
      (c.2.aligned = false → c.2.dims.map (·.1) = [c.1])) ∧
      x = ⟨⟨da.data.dims, da.data.values, da.data.unit.map str⟩, da.coords.map (fun c => (c.1, ⟨c.2.dims, c.2.values, c.2.unit.map str⟩)),
        (da.coords.filter (fun c => hasIndex c.1 c.2.dims && c.2.aligned)).map (·.1), none⟩ := by
  unfold toArr
  cases hd : toVar str da.data with
  | error e =>
    refine ⟨fun h => (by cases h), ?_⟩
    rintro ⟨⟨h, _⟩, _⟩
    rw [(toVar_ok str da.data _).2 ⟨h, rfl⟩] at hd
    cases hd
  | ok d =>
    obtain ⟨hb, rfl⟩ := (toVar_ok str da.data d).1 hd
    cases hc : toCoords str da.data.dims da.coords with
    | error e =>
      refine ⟨fun h => (by cases h), ?_⟩
      rintro ⟨⟨_, h⟩, _⟩
      rw [(toCoords_ok str da.data.dims da.coords _).2 ⟨fun c hcm => ⟨(h c hcm).2.1, (h c hcm).1⟩, rfl⟩] at hc
      cases hc
    | ok xs =>
      obtain ⟨h1, rfl⟩ := (toCoords_ok str da.data.dims da.coords xs).1 hc
      simp only
      have hidx : ∀ k, k ∈ ((da.coords.map (fun c => ((c.1, ⟨c.2.dims, c.2.values, c.2.unit.map str⟩) : Dim × XVar V S))).filter (fun c => hasIndex c.1 c.2.dims)).map (·.1) ↔
          ∃ c ∈ da.coords, c.1 = k ∧ c.2.dims.map (·.1) = [c.1] := by
        intro k
        constructor
        · intro h
          obtain ⟨c', hc', rfl⟩ := List.mem_map.1 h
          obtain ⟨hc', hi⟩ := List.mem_filter.1 hc'
          obtain ⟨c, hcm, rfl⟩ := List.mem_map.1 hc'
          exact ⟨c, hcm, rfl, by simpa [hasIndex] using hi⟩
        · rintro ⟨c, hcm, rfl, hi⟩
          exact List.mem_map.2 ⟨_, List.mem_filter.2 ⟨List.mem_map.2 ⟨c, hcm, rfl⟩, by simpa [hasIndex] using hi⟩, rfl⟩
      have hdrop : ∀ k, k ∈ (da.coords.filter (fun c => c.2.aligned == false)).map (·.1) ↔ ∃ c ∈ da.coords, c.1 = k ∧ c.2.aligned = false := by
        intro k
        constructor
        · intro h
          obtain ⟨c, hcm, rfl⟩ := List.mem_map.1 h
          obtain ⟨hcm, ha⟩ := List.mem_filter.1 hcm
          exact ⟨c, hcm, rfl, by simpa using ha⟩
        · rintro ⟨c, hcm, rfl, ha⟩
          exact List.mem_map.2 ⟨c, List.mem_filter.2 ⟨hcm, by simpa using ha⟩, rfl⟩
      have huniq : ∀ c ∈ da.coords, ∀ c' ∈ da.coords, c'.1 = c.1 → c' = c := fun c h c' h' e => List.inj_on_of_nodup_map hn h' h e
      by_cases hall : ∀ c ∈ da.coords, c.2.aligned = false → c.2.dims.map (·.1) = [c.1]
      · rw [if_neg]
        · have hfil : (((da.coords.map (fun c => ((c.1, ⟨c.2.dims, c.2.values, c.2.unit.map str⟩) : Dim × XVar V S))).filter (fun c => hasIndex c.1 c.2.dims)).map (·.1)).filter
              (fun k => ((da.coords.filter (fun c => c.2.aligned == false)).map (·.1)).contains k == false) =
              (da.coords.filter (fun c => hasIndex c.1 c.2.dims && c.2.aligned)).map (·.1) := by
            rw [List.filter_map, List.filter_map, List.filter_map, List.map_map, List.filter_filter]
            refine congrArg (List.map _) (List.filter_congr ?_)
            intro c hcm
            show ((((da.coords.filter (fun c => c.2.aligned == false)).map (·.1)).contains c.1 == false) && hasIndex c.1 c.2.dims) = (hasIndex c.1 c.2.dims && c.2.aligned)
            rw [Bool.and_comm]
            congr 1
            cases ha : c.2.aligned with
            | false =>
              rw [List.contains_iff_mem.2 ((hdrop c.1).2 ⟨c, hcm, rfl, ha⟩)]
              rfl
            | true =>
              rw [beq_iff_eq, ← Bool.not_eq_true, List.contains_iff_mem, hdrop]
              rintro ⟨c', hcm', he, ha'⟩
              rw [huniq c hcm c' hcm' he, ha] at ha'
              cases ha'
          rw [hfil]
          refine ⟨fun h => ⟨⟨hb, fun c hcm => ⟨(h1 c hcm).2, (h1 c hcm).1, hall c hcm⟩⟩, (Except.ok.inj h).symm⟩, ?_⟩
          rintro ⟨_, rfl⟩
          rfl
        · intro h
          obtain ⟨k, hk, hki⟩ := List.any_eq_true.1 h
          obtain ⟨c, hcm, rfl, ha⟩ := (hdrop k).1 hk
          have := (hidx c.1).2 ⟨c, hcm, rfl, hall c hcm ha⟩
          rw [List.contains_iff_mem.2 this] at hki
          cases hki
      · rw [if_pos]
        · refine ⟨fun h => (by cases h), ?_⟩
          rintro ⟨⟨_, h⟩, _⟩
          exact absurd (fun c hcm => (h c hcm).2.2) hall
        · have ⟨c, hcm, ha, hi⟩ : ∃ c ∈ da.coords, c.2.aligned = false ∧ ¬ c.2.dims.map (·.1) = [c.1] := by
            simpa only [not_forall, exists_prop] using hall
          refine List.any_eq_true.2 ⟨c.1, (hdrop c.1).2 ⟨c, hcm, rfl, ha⟩, ?_⟩
          rw [beq_iff_eq, ← Bool.not_eq_true, List.contains_iff_mem, hidx]
          rintro ⟨c', hcm', he, hi'⟩
          rw [huniq c hcm c' hcm' he] at hi'
          exact hi hi'

/-- **C127** What is converted to Xarray and what is rejected: neither data nor coords may be binned, no coord may be bin edges, and coords which are not aligned must be the dimension coord of a dim. -/
theorem C127_rejects {V U S : Type} (str : U → S) (da : SArr V U) (hn : (da.coords.map (·.1)).Nodup) :
    (∃ x, toArr str da = .ok x) ↔ da.data.binned = false ∧ ∀ c ∈ da.coords, c.2.binned = false ∧ (∀ p ∈ c.2.dims, Sizes.isEdges da.data.dims c.2.dims p.1 = false) ∧
      (c.2.aligned = false → c.2.dims.map (·.1) = [c.1]) := by
  constructor
  · rintro ⟨x, hx⟩
    exact ((toArr_eq str da hn x).1 hx).1
  · intro h
    exact ⟨_, (toArr_eq str da hn _).2 ⟨h, rfl⟩⟩

/-- **C127** What is converted: data and coords with their dims, values and units; masks and variances are stripped, as documented; aligned dimension coords are those with an index. -/
theorem C127_converted {V U S : Type} (str : U → S) (da : SArr V U) (hn : (da.coords.map (·.1)).Nodup) (x : XArr V S) (h : toArr str da = .ok x) :
    x.data = ⟨da.data.dims, da.data.values, da.data.unit.map str⟩ ∧
    x.coords.map (·.1) = da.coords.map (·.1) ∧
    List.Forall₂ (fun c y => y.2 = (⟨c.2.dims, c.2.values, c.2.unit.map str⟩ : XVar V S)) da.coords x.coords ∧
    ∀ c ∈ da.coords, c.1 ∈ x.indexes ↔ c.2.dims.map (·.1) = [c.1] ∧ c.2.aligned = true := by
  obtain ⟨_, rfl⟩ := (toArr_eq str da hn x).1 h
  refine ⟨rfl, by simp [List.map_map, Function.comp_def], ?_, ?_⟩
  · rw [List.forall₂_map_right_iff]
    exact List.forall₂_same.2 (fun c _ => rfl)
  · intro c hc
    constructor
    · intro h
      obtain ⟨c', hc', he⟩ := List.mem_map.1 h
      obtain ⟨hcm, hp⟩ := List.mem_filter.1 hc'
      cases List.inj_on_of_nodup_map hn hcm hc he
      simpa [hasIndex] using hp
    · rintro ⟨h1, h2⟩
      exact List.mem_map.2 ⟨c, List.mem_filter.2 ⟨hc, by simp [hasIndex, h1, h2]⟩, rfl⟩

theorem fromCoords_map {V U S : Type} (str : U → S) (parse : S → Except Err U) (dflt : V → Option U) (hp : ∀ u, parse (str u) = .ok u) (indexes : List Dim) (l : List (Dim × SVar V U)) :
    fromCoords parse dflt indexes (l.map (fun c => ((c.1, ⟨c.2.dims, c.2.values, c.2.unit.map str⟩) : Dim × XVar V S))) =
      .ok (l.map (fun c => (c.1, c127Var dflt (indexes.contains c.1) c.2))) := by
  induction l with
  | nil => rfl
  | cons c l ih =>
    simp only [List.map_cons, fromCoords]
    rw [fromVar_toVar str parse dflt hp, ih]
    simp only
    cases indexes.contains c.1 with
    | true => rfl
    | false => rfl

/-- **C127** The round trip: names, dims and values of everything are kept, variances and masks are stripped, units are kept except that a default unit replaces none, and coords are aligned if and only if they were and are dimension coords. -/
theorem C127_roundtrip {V U S : Type} (str : U → S) (parse : S → Except Err U) (dflt : V → Option U) (hp : ∀ u, parse (str u) = .ok u) (da : SArr V U) (hn : (da.coords.map (·.1)).Nodup) (x : XArr V S) (h : toArr str da = .ok x) :
    fromArr parse dflt x = .ok ⟨c127Var dflt true da.data,
      da.coords.map (fun c => (c.1, c127Var dflt (decide (c.2.dims.map (·.1) = [c.1] ∧ c.2.aligned = true)) c.2)), [], 0⟩ := by
  have hidx := (C127_converted str da hn x h).2.2.2
  obtain ⟨_, hx⟩ := (toArr_eq str da hn x).1 h
  have hd : x.data = ⟨da.data.dims, da.data.values, da.data.unit.map str⟩ := by rw [hx]
  have hc : x.coords = da.coords.map (fun c => (c.1, ⟨c.2.dims, c.2.values, c.2.unit.map str⟩)) := by rw [hx]
  have hnm : x.name = none := by rw [hx]
  unfold fromArr
  rw [hc, fromCoords_map str parse dflt hp, hd, fromVar_toVar str parse dflt hp, hnm]
  simp only [Option.getD_none, Except.ok.injEq, SArr.mk.injEq, true_and, and_true]
  refine List.map_congr_left ?_
  intro c hcm
  have : x.indexes.contains c.1 = decide (c.2.dims.map (·.1) = [c.1] ∧ c.2.aligned = true) := by
    rw [Bool.eq_iff_iff, List.contains_iff_mem, decide_eq_true_iff]
    exact hidx c hcm
  rw [this]

/-- **C127** (partial: for data arrays without name, whose aligned coords are dimension coords, and with units unless the default is none) Data arrays without masks and variances are unchanged by the round trip. -/
theorem C127_unchanged_partial {V U S : Type} (str : U → S) (parse : S → Except Err U) (dflt : V → Option U) (hp : ∀ u, parse (str u) = .ok u) (da : SArr V U) (hn : (da.coords.map (·.1)).Nodup) (x : XArr V S) (h : toArr str da = .ok x)
    (hm : da.masks = []) (hv : ∀ v ∈ da.data :: da.coords.map (·.2), v.variances = none ∧ (v.unit = none → dflt v.values = none)) (ha : da.data.aligned = true)
    (hname : da.name = 0) (hal : ∀ c ∈ da.coords, c.2.aligned = true → c.2.dims.map (·.1) = [c.1]) :
    fromArr parse dflt x = .ok da := by
  obtain ⟨⟨hb, hall⟩, _⟩ := (toArr_eq str da hn x).1 h
  have hvar : ∀ (v : SVar V U), v.binned = false → v.variances = none ∧ (v.unit = none → dflt v.values = none) → c127Var dflt v.aligned v = v := by
    rintro ⟨d, w, va, u, b, al⟩ hb ⟨h1, h2⟩
    simp only at hb h1 h2
    subst hb h1
    cases u with
    | none => simp [c127Var, h2 rfl]
    | some u => rfl
  rw [C127_roundtrip str parse dflt hp da hn x h]
  have hd : c127Var dflt true da.data = da.data := by
    have := hvar da.data hb (hv _ (by simp))
    rwa [ha] at this
  have hc : da.coords.map (fun c => (c.1, c127Var dflt (decide (c.2.dims.map (·.1) = [c.1] ∧ c.2.aligned = true)) c.2)) = da.coords := by
    refine Eq.trans (List.map_congr_left ?_) (List.map_id _)
    intro c hcm
    have h1 : decide (c.2.dims.map (·.1) = [c.1] ∧ c.2.aligned = true) = c.2.aligned := by
      cases h2 : c.2.aligned with
      | false => simp
      | true => simp [hal c hcm h2]
    rw [h1, hvar c.2 (hall c hcm).1 (hv _ (by simp only [List.mem_cons]; exact Or.inr (List.mem_map.2 ⟨c, hcm, rfl⟩)))]
    rfl
  rw [hd, hc, ← hm, ← hname]

/-- **C127** fails for names: the name of a data array is always lost, whatever else it contains. -/
theorem C127_wrong_name {V U S : Type} (str : U → S) (da : SArr V U) (x : XArr V S) (h : toArr str da = .ok x) : x.name = none := by
  unfold toArr at h
  split at h
  · cases h
  · split at h
    · cases h
    · simp only at h
      split at h
      · cases h
      · rw [← Except.ok.inj h]

/-- **C127** fails for units: an array of numbers without unit is dimensionless after the round trip. -/
theorem C127_wrong_unit {V U S : Type} (str : U → S) (parse : S → Except Err U) (dflt : V → Option U) (dims : Dims) (values : V) (one : U) (h : dflt values = some one) :
    (toVar str ⟨dims, values, none, none, false, true⟩ >>= fromVar parse dflt) = .ok ⟨dims, values, none, some one, false, true⟩ := by
  have h1 : toVar str (⟨dims, values, none, none, false, true⟩ : SVar V U) = .ok ⟨dims, values, none⟩ := rfl
  rw [h1]
  show Except.ok _ = _
  rw [h]

/-! Cases meeting the hypotheses: units are numbers written as text. Default unit is 0. -/

/-- Parser of units for the examples. -/
def c127Parse (s : Nat × Nat) : Except Err Nat := if s.2 = 7 then .ok s.1 else .error .unit

/-- Two dims, dimension coords, one of which is not aligned. -/
def c127Arr : SArr Int Nat :=
  ⟨⟨[(1, 2), (2, 3)], 5, none, some 4, false, true⟩, [(1, ⟨[(1, 2)], 6, none, some 3, false, true⟩), (2, ⟨[(2, 3)], 8, none, some 3, false, false⟩)], [], 0⟩

example : toArr (fun u => (u, 7)) c127Arr = .ok ⟨⟨[(1, 2), (2, 3)], 5, some (4, 7)⟩, [(1, ⟨[(1, 2)], 6, some (3, 7)⟩), (2, ⟨[(2, 3)], 8, some (3, 7)⟩)], [1], none⟩ := by decide

example : (toArr (fun u => (u, 7)) c127Arr >>= fromArr c127Parse (fun _ => some 0)) = .ok c127Arr := by decide

example : fromArr c127Parse (fun _ => some 0) ⟨⟨[(1, 2), (2, 3)], 5, some (4, 7)⟩, [(1, ⟨[(1, 2)], 6, some (3, 7)⟩), (2, ⟨[(2, 3)], 8, some (3, 7)⟩)], [1], none⟩ = .ok c127Arr :=
  C127_unchanged_partial (fun u => (u, 7)) c127Parse (fun _ => some 0) (fun _ => rfl) c127Arr (by decide) _ (by decide) rfl (by decide) rfl rfl (by decide)

/-- An aligned coord which is no dimension coord. -/
def c127Aux (aligned : Bool) : SArr Int Nat := ⟨⟨[(1, 2)], 5, none, some 4, false, true⟩, [(9, ⟨[(1, 2)], 6, none, some 3, false, aligned⟩)], [], 3⟩

/-- **C127** fails for coords which are no dimension coords: if aligned, they are not aligned after the round trip; otherwise they cannot be converted at all. -/
theorem C127_wrong_aligned : (toArr (fun u => (u, 7)) (c127Aux true) >>= fromArr c127Parse (fun _ => some 0)) = .ok { c127Aux false with name := 0 } ∧
    toArr (fun u => (u, 7)) (c127Aux false) = .error .invalidArgument := by decide

example : toArr (fun u => (u, 7)) { c127Arr with coords := [(1, ⟨[(1, 3)], 6, none, some 3, false, true⟩)] } = .error .invalidArgument := by decide

end Scipp.Props
