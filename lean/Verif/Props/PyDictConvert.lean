import Verif.Spec.PyDictConvert
import Mathlib.Tactic.SplitIfs

/-!
# C114: conversion to dicts and back

`from_dict(to_dict(x))` is `x`.
-/

namespace Scipp.Props
open Scipp Scipp.PyDictConvert

variable {V : Type}

theorem PyDictConvert.variable_ok (swap : V → V) (hswap : ∀ x, swap (swap x) = x) (v : Var V) (hv : v.Ok) :
    dictToVariable swap (variableToDict v) = .ok v := by
  obtain ⟨dims, shape, unit, dtype, aligned, values, variances⟩ := v
  obtain ⟨⟨h1, h2⟩, hg⟩ := hv
  simp only at h1 h2
  have hs : dtype = .string → dims ≠ [] → [List.foldl (fun x1 x2 => x1 * x2) 1 shape] = shape := by
    rintro rfl hd
    have hl : shape.length = 1 := by
      have : dims.length ≤ 1 := hg
      have h0 : dims.length ≠ 0 := by simpa using hd
      omega
    match shape, hl with
    | [n], _ => simp
  cases dtype <;> cases aligned <;> cases variances <;> cases dims <;>
    simp_all [dictToVariable, variableToDict, valuesOf, PyDict.has, PyDict.without, PyDict.get, dtypeOf, List.lookup, callVariable, callStructured,
      callStructured0, makeVariable, DT.structured, Var.Good]

theorem PyDictConvert.variables_ok (swap : V → V) (hswap : ∀ x, swap (swap x) = x) (l : List (String × Var V)) (hl : AllOk l) :
    ((l.map fun p => (p.1, (Obj.dict (variableToDict p.2) : Obj V))).mapM fun p =>
      match p.2 with
      | .dict x =>
        match dictToVariable swap x with
        | .error e => .error e
        | .ok v => .ok (p.1, v)
      | _ => .error .dtype) = (.ok l : Except Err _) := by
  induction l with
  | nil => rfl
  | cons p l ih =>
    rw [List.map_cons, List.mapM_cons, ih fun q hq => hl q (List.mem_cons_of_mem _ hq)]
    simp only [PyDictConvert.variable_ok swap hswap p.2 (hl p (by simp))]
    rfl

theorem PyDictConvert.array_ok (swap : V → V) (hswap : ∀ x, swap (swap x) = x) (a : DataArray V) (ha : a.Ok) :
    dictToDataArray swap (dataArrayToDict a) = .ok { a with name := "" } := by
  obtain ⟨h1, h2, h3, h4⟩ := ha
  have hc : dictToVariables swap (dataArrayToDict a) "coords" = .ok a.coords := PyDictConvert.variables_ok swap hswap _ h2
  have hm : dictToVariables swap (dataArrayToDict a) "masks" = .ok a.masks := PyDictConvert.variables_ok swap hswap _ h3
  have ht : dictToVariables swap (dataArrayToDict a) "attrs" = .ok a.attrs := PyDictConvert.variables_ok swap hswap _ h4
  have hd := PyDictConvert.variable_ok swap hswap _ h1
  have hh : PyDict.has (dataArrayToDict a) "data" = true := by simp [dataArrayToDict, PyDict.has]
  have hg : PyDict.get (dataArrayToDict a) "data" = .ok (.dict (variableToDict a.data)) := by simp [dataArrayToDict, PyDict.get, List.lookup]
  simp only [dictToDataArray, hh, Bool.not_true, Bool.false_eq_true, if_false, hc, hm, ht, hg, hd]

/-- **C114** (variables): the conversion to a dict and back gives the same variable. Missing: affine transformations, arrays of strings with several dims, unaligned vectors and
linear transformations, and bins, see `C114_wrong_affine`, `C114_wrong_strings`, `C114_wrong_unaligned`, `C114_wrong_binned`. -/
theorem C114_variable_partial (swap : V → V) (hswap : ∀ x, swap (swap x) = x) (eq : Var V → Var V → Bool) (v : Var V) (hv : v.Ok) :
    fromDict swap eq (toDict (.variable v)) = .ok (.variable v) := by
  have h := PyDictConvert.variable_ok swap hswap v hv
  have hk1 : (PyDict.has (variableToDict v) "coords" && PyDict.has (variableToDict v) "data") = false := by
    cases ha : v.aligned <;> simp [variableToDict, PyDict.has, ha]
  have hk2 : (variableToDict v).all (fun p => ["dims", "values", "variances", "unit", "dtype", "shape", "aligned"].contains p.1) = true := by
    cases ha : v.aligned <;> simp [variableToDict, ha]
  simp only [toDict, fromDict, hk1, hk2, h, if_true, Bool.false_eq_true, if_false]

/-- **C114** (data arrays): the conversion to a dict and back gives the same data, coords, masks and attributes, without a name. -/
theorem C114_array_partial (swap : V → V) (hswap : ∀ x, swap (swap x) = x) (eq : Var V → Var V → Bool) (a : DataArray V) (ha : a.Ok) :
    fromDict swap eq (toDict (.array a)) = .ok (.array { a with name := "" }) := by
  have h := PyDictConvert.array_ok swap hswap a ha
  have hk1 : (PyDict.has (dataArrayToDict a) "coords" && PyDict.has (dataArrayToDict a) "data") = true := by
    simp [dataArrayToDict, PyDict.has]
  simp only [toDict, fromDict, hk1, h, if_true]

/-- **C114**, broken: a data array comes back without its name, although the dict contains it. -/
theorem C114_wrong_name (swap : V → V) (hswap : ∀ x, swap (swap x) = x) (eq : Var V → Var V → Bool) (a : DataArray V) (ha : a.Ok) :
    (fromDict swap eq (toDict (.array a)) = .ok (.array a) ↔ a.name = "") ∧
    PyDict.get (toDict (.array a)) "name" = .ok (.text a.name) := by
  constructor
  · rw [C114_array_partial swap hswap eq a ha]
    constructor
    · intro h
      have := Except.ok.inj h
      injection this with this
      rw [← this]
    · intro h
      rw [← h]
  · simp [toDict, dataArrayToDict, PyDict.get, List.lookup]

theorem PyDictConvert.arrays_ok (swap : V → V) (hswap : ∀ x, swap (swap x) = x) (d : Dataset V) (hc : AllOk d.coords)
    (items : List (String × Item V)) (hi : ∀ p ∈ items, p.2.data.Ok ∧ AllOk p.2.masks ∧ AllOk p.2.attrs) :
    dictToArrays swap (items.map fun p => (p.1, (Obj.dict (dataArrayToDict (d.array p.1 p.2)) : Obj V))) =
      .ok (items.map fun p => (p.1, { d.array p.1 p.2 with name := "" })) := by
  unfold dictToArrays
  induction items with
  | nil => rfl
  | cons p l ih =>
    rw [List.map_cons, List.mapM_cons, ih fun q hq => hi q (List.mem_cons_of_mem _ hq)]
    obtain ⟨h1, h2, h3⟩ := hi p (by simp)
    simp only [PyDictConvert.array_ok swap hswap (d.array p.1 p.2) ⟨h1, hc, h2, h3⟩]
    rfl

theorem PyDictConvert.lookup_self (l : List (String × Var V)) (hn : (l.map (·.1)).Nodup) (p : String × Var V) (hp : p ∈ l) : l.lookup p.1 = some p.2 := by
  induction l with
  | nil => simp at hp
  | cons q l ih =>
    rw [List.map_cons, List.nodup_cons] at hn
    rcases List.mem_cons.1 hp with rfl | hp
    · simp [List.lookup]
    · have hne : p.1 ≠ q.1 := fun h => hn.1 (h ▸ List.mem_map.2 ⟨p, hp, rfl⟩)
      have : (p.1 == q.1) = false := by simpa using hne
      simp only [List.lookup, this]
      exact ih hn.2 hp

theorem PyDictConvert.fold_ok (eq : Var V → Var V → Bool) (heq : ∀ v, eq v v = true) (d : Dataset V) (hn : (d.coords.map (·.1)).Nodup)
    (items done : List (String × Item V)) :
    (items.map fun p => (p.1, ({ d.array p.1 p.2 with name := "" } : DataArray V))).foldlM (fun ds p => setData eq ds p.1 p.2) ⟨d.coords, done⟩ =
      (.ok ⟨d.coords, done ++ items⟩ : Except Err (Dataset V)) := by
  induction items generalizing done with
  | nil => simp [pure, Except.pure]
  | cons p l ih =>
    have hself := PyDictConvert.lookup_self d.coords hn
    have hck : checkCoords eq d.coords d.coords = .ok () := by
      simp only [checkCoords]
      rw [if_pos]
      rw [List.all_eq_true]
      intro q hq
      rw [hself q hq]
      simp [heq]
    have hfi : d.coords.filter (fun p => (d.coords.lookup p.1).isNone) = [] := by
      rw [List.filter_eq_nil_iff]
      intro q hq
      rw [hself q hq]
      simp
    have hstep : setData eq ⟨d.coords, done⟩ p.1 { d.array p.1 p.2 with name := "" } = .ok ⟨d.coords, done ++ [p]⟩ := by
      simp only [setData, Dataset.array, hck, hfi, List.append_nil]
    rw [List.map_cons, List.foldlM_cons]
    simp only [hstep]
    have := ih (done ++ [p])
    rw [List.append_assoc] at this
    exact this

/-- **C114** (datasets): the conversion to a dict and back gives the same dataset. `eq` is the comparison of coords (NaN equals itself). Missing: datasets without items,
and those whose items have names that let the dict look like that of a data array or variable, see `C114_wrong_empty`, `C114_wrong_names`. -/
theorem C114_dataset_partial (swap : V → V) (hswap : ∀ x, swap (swap x) = x) (eq : Var V → Var V → Bool) (heq : ∀ v, eq v v = true) (d : Dataset V)
    (hd : d.Ok) (hn : (d.coords.map (·.1)).Nodup) (hnot : ¬ ("coords" ∈ d.items.map (·.1) ∧ "data" ∈ d.items.map (·.1)))
    (hvar : ∃ p ∈ d.items, p.1 ∉ variableKeys) :
    fromDict swap eq (toDict (.dataset d)) = .ok (.dataset d) := by
  have harr := PyDictConvert.arrays_ok swap hswap d hd.1 d.items hd.2
  have hk1 : (PyDict.has (toDict (.dataset d)) "coords" && PyDict.has (toDict (.dataset d)) "data") = false := by
    rw [Bool.eq_false_iff]
    intro h
    apply hnot
    simpa [toDict, PyDict.has] using h
  have hk2 : ¬ (toDict (.dataset d)).all (fun p => ["dims", "values", "variances", "unit", "dtype", "shape", "aligned"].contains p.1) = true := by
    intro h
    obtain ⟨p, hp, hpn⟩ := hvar
    rw [List.all_eq_true] at h
    have := h (p.1, .dict (dataArrayToDict (d.array p.1 p.2))) (List.mem_map.2 ⟨p, hp, rfl⟩)
    exact hpn (by simpa [variableKeys] using this)
  have hds : dictToDataset swap eq (toDict (.dataset d)) = .ok d := by
    simp only [dictToDataset, toDict, harr]
    obtain ⟨coords, items⟩ := d
    cases items with
    | nil => obtain ⟨p, hp, _⟩ := hvar; simp at hp
    | cons p l =>
      have hfirst : setData eq ⟨[], []⟩ p.1 { Dataset.array ⟨coords, p :: l⟩ p.1 p.2 with name := "" } = .ok ⟨coords, [p]⟩ := by
        have hf : coords.filter (fun p => ((List.lookup p.1 ([] : List (String × Var V)))).isNone) = coords := by
          rw [List.filter_eq_self]; intro q _; rfl
        simp only [setData, Dataset.array, checkCoords, List.lookup, List.all_eq_true, implies_true, if_true, List.nil_append, hf]
        rw [List.filter_eq_self.2 (by intro q _; rfl)]
      rw [List.map_cons, List.foldlM_cons]
      simp only [hfirst]
      exact PyDictConvert.fold_ok eq heq ⟨coords, p :: l⟩ hn l [p]
  simp only [fromDict, hk1, if_neg hk2, hds, Bool.false_eq_true, if_false]

/-- **C114**, broken: an affine transformation comes back with the axes of its matrices exchanged. -/
theorem C114_wrong_affine (swap : V → V) (eq : Var V → Var V → Bool) (v : Var V) (hv : v.Valid) (ht : v.dtype = .affine) :
    fromDict swap eq (toDict (.variable v)) = .ok (.variable { v with values := swap v.values }) := by
  obtain ⟨dims, shape, unit, dtype, aligned, values, variances⟩ := v
  obtain ⟨h1, h2⟩ := hv
  simp only at h1 h2 ht
  subst ht
  obtain rfl : variances = none := h2 rfl
  cases aligned <;> cases dims <;>
    simp_all [fromDict, toDict, dictToVariable, variableToDict, valuesOf, PyDict.has, PyDict.without, PyDict.get, dtypeOf, List.lookup, callVariable,
      makeVariable, DT.structured]

/-- **C114**, broken: the dict of an array of strings with several dims is rejected, since it contains the strings as a flat sequence. -/
theorem C114_wrong_strings (swap : V → V) (eq : Var V → Var V → Bool) (v : Var V) (ht : v.dtype = .string) (hd : 2 ≤ v.dims.length) :
    fromDict swap eq (toDict (.variable v)) = .error .invalidArgument := by
  obtain ⟨dims, shape, unit, dtype, aligned, values, variances⟩ := v
  simp only at ht hd
  subst ht
  match dims, hd with
  | a :: b :: dims, _ =>
    cases aligned <;> cases variances <;>
      simp [fromDict, toDict, dictToVariable, variableToDict, valuesOf, PyDict.has, PyDict.without, PyDict.get, dtypeOf, List.lookup, callVariable,
        makeVariable, DT.structured]

/-- **C114**, broken: the dict of an unaligned vector or linear transformation is rejected, since the functions that make them do not know the flag. -/
theorem C114_wrong_unaligned (swap : V → V) (eq : Var V → Var V → Bool) (v : Var V) (ht : v.dtype = .vector3 ∨ v.dtype = .linear)
    (ha : v.aligned = false) : fromDict swap eq (toDict (.variable v)) = .error .dtype := by
  obtain ⟨dims, shape, unit, dtype, aligned, values, variances⟩ := v
  simp only at ht ha
  subst ha
  rcases ht with rfl | rfl <;> cases dims <;> cases variances <;>
    simp [fromDict, toDict, dictToVariable, variableToDict, valuesOf, PyDict.has, PyDict.without, PyDict.get, dtypeOf, List.lookup, callStructured,
      callStructured0]

/-- **C114**, broken: the dict of binned data is rejected. -/
theorem C114_wrong_binned (swap : V → V) (eq : Var V → Var V → Bool) (v : Var V) (ht : v.dtype = .binned) :
    fromDict swap eq (toDict (.variable v)) = .error .dtype := by
  obtain ⟨dims, shape, unit, dtype, aligned, values, variances⟩ := v
  simp only at ht
  subst ht
  cases aligned <;> cases variances <;>
    simp [fromDict, toDict, dictToVariable, variableToDict, valuesOf, PyDict.has, PyDict.without, PyDict.get, dtypeOf, List.lookup, callVariable,
      makeVariable, DT.structured]

/-- **C114**, broken: the dict of a dataset without items does not contain the coords and is rejected. -/
theorem C114_wrong_empty (swap : V → V) (eq : Var V → Var V → Bool) (d : Dataset V) (hd : d.items = []) :
    toDict (.dataset d) = [] ∧ fromDict swap eq (toDict (.dataset d)) = .error .notFound := by
  simp [toDict, hd, fromDict, PyDict.has, dictToVariable, PyDict.get]

/-- **C114**, broken: the dict of a dataset whose items all have names of the properties of variables, e.g., `values` and `variances`, is taken for a variable and rejected. -/
theorem C114_wrong_names (swap : V → V) (eq : Var V → Var V → Bool) (d : Dataset V) (hd : ∀ p ∈ d.items, p.1 ∈ variableKeys)
    (hdims : "dims" ∉ d.items.map (·.1)) : fromDict swap eq (toDict (.dataset d)) = .error .notFound := by
  have hk1 : PyDict.has (toDict (.dataset d)) "coords" = false := by
    rw [Bool.eq_false_iff]
    intro h
    simp only [toDict, PyDict.has, List.any_map, List.any_eq_true, Function.comp, beq_iff_eq] at h
    obtain ⟨p, hp, he⟩ := h
    have := hd p hp
    rw [he] at this
    simp [variableKeys] at this
  have hk2 : (toDict (.dataset d)).all (fun p => ["dims", "values", "variances", "unit", "dtype", "shape", "aligned"].contains p.1) = true := by
    rw [List.all_eq_true]
    intro q hq
    obtain ⟨p, hp, rfl⟩ := List.mem_map.1 hq
    simpa [variableKeys] using hd p hp
  have hlook : ∀ l : PyDict V, "dims" ∉ l.map (·.1) → l.lookup "dims" = none := by
    intro l
    induction l with
    | nil => intro _; rfl
    | cons q l ih =>
      intro h
      simp only [List.map_cons, List.mem_cons, not_or] at h
      have : ("dims" == q.1) = false := by simpa using h.1
      simp only [List.lookup, this]
      exact ih h.2
  have hkeys : "dims" ∉ (toDict (.dataset d)).map (·.1) := by
    simpa [toDict] using hdims
  have hfin : dictToVariable swap (toDict (.dataset d)) = .error .notFound := by
    simp only [dictToVariable, PyDict.get]
    have h1 : List.lookup "dims" (if (PyDict.has (toDict (.dataset d)) "values" && PyDict.has (toDict (.dataset d)) "shape") = true then
        PyDict.without (toDict (.dataset d)) ["shape"] else toDict (.dataset d)) = none := by
      apply hlook
      split_ifs
      · intro h
        obtain ⟨q, hq, he⟩ := List.mem_map.1 h
        exact hkeys (he ▸ List.mem_map.2 ⟨q, (List.mem_filter.1 hq).1, rfl⟩)
      · exact hkeys
    rw [h1]
  simp only [fromDict, hk1, Bool.false_and, Bool.false_eq_true, if_false, hk2, if_true, hfin]

section Examples

private def sw (p : Int × Int) : Int × Int := (p.2, p.1)
private theorem sw_sw (p : Int × Int) : sw (sw p) = p := rfl

private def x : Var (Int × Int) := ⟨["x"], [2], some "m", .plain 3, false, (1, 2), some (3, 4)⟩
private def rot : Var (Int × Int) := ⟨[], [], some "", .linear, true, (1, 2), none⟩
private def aff : Var (Int × Int) := ⟨[], [], some "", .affine, true, (1, 2), none⟩
private def names : Var (Int × Int) := ⟨["x", "y"], [1, 2], none, .string, true, (1, 2), none⟩
private def da : DataArray (Int × Int) := ⟨x, [("x", x), ("r", rot)], [("m", x)], [("a", rot)], "name"⟩
private def ds : Dataset (Int × Int) := ⟨[("x", x), ("r", rot)], [("a", ⟨x, [("m", x)], []⟩), ("values", ⟨x, [], [("a", rot)]⟩)]⟩

private theorem x_ok : x.Ok := by simp [x, Var.Ok, Var.Valid, Var.Good, DT.structured]
private theorem rot_ok : rot.Ok := by simp [rot, Var.Ok, Var.Valid, Var.Good, DT.structured]

example := C114_variable_partial sw sw_sw (fun a b => a = b) x x_ok
example := C114_variable_partial sw sw_sw (fun a b => a = b) rot rot_ok
example : da.Ok := by
  refine ⟨x_ok, ?_, ?_, ?_⟩ <;> intro p hp <;> simp [da] at hp <;> (try rcases hp with rfl | rfl) <;> (try subst hp) <;>
    first | exact x_ok | exact rot_ok
example : fromDict sw (fun a b => a = b) (toDict (.array da)) ≠ .ok (.array da) := by
  rw [C114_array_partial sw sw_sw _ da (by
    refine ⟨x_ok, ?_, ?_, ?_⟩ <;> intro p hp <;> simp [da] at hp <;> (try rcases hp with rfl | rfl) <;> (try subst hp) <;>
      first | exact x_ok | exact rot_ok)]
  simp [da]
example := C114_dataset_partial sw sw_sw (fun a b => a = b) (by simp) ds (by
    refine ⟨?_, ?_⟩
    · intro p hp; simp [ds] at hp; rcases hp with rfl | rfl
      · exact x_ok
      · exact rot_ok
    · intro p hp; simp [ds] at hp; rcases hp with rfl | rfl
      · exact ⟨x_ok, by intro q hq; simp at hq; subst hq; exact x_ok, by intro q hq; simp at hq⟩
      · exact ⟨x_ok, by intro q hq; simp at hq, by intro q hq; simp at hq; subst hq; exact rot_ok⟩)
  (by decide) (by decide) ⟨_, List.mem_cons_self, by decide⟩
example := C114_wrong_affine sw (fun a b => a = b) aff (by simp [aff, Var.Valid]) rfl
example : ({ aff with values := sw aff.values } : Var (Int × Int)) ≠ aff := by decide
example := C114_wrong_strings sw (fun a b => a = b) names rfl (by decide)
example := C114_wrong_unaligned sw (fun a b => a = b) { rot with aligned := false } (Or.inr rfl) rfl
example := C114_wrong_binned sw (fun a b => a = b) { x with dtype := .binned } rfl
example := C114_wrong_empty sw (fun a b => a = b) ⟨[("x", x)], []⟩ rfl
example := C114_wrong_names sw (fun a b => a = b) ⟨[("x", x)], [("values", ⟨x, [], []⟩)]⟩ (by decide) (by decide)

end Examples

end Scipp.Props
