import Verif.Model.Equality
import Verif.Lemmas.View
import Verif.Lemmas.SizedDict
import Verif.Props.Index
import Mathlib.Data.List.Perm.Subperm
/-!
C54: equality of variables, dictionaries, data arrays and datasets.
-/
namespace Scipp.Props
open Scipp Scipp.Sizes

variable {V : Type}

/-! ### Specification -/

/-- Element of a variable at named coordinates. -/
def valueAt (a : CmpVar V) (c : Dim → Int) : V := a.values (a.view.addr c)

/-- Two optional buffers of variances agree at the given addresses. -/
def VariancesAgree (p : V → V → Bool) (a b : CmpVar V) (c : Dim → Int) : Prop :=
  ∀ x y, a.variances = some x → b.variances = some y → p (x (a.view.addr c)) (y (b.view.addr c)) = true

/-- The property promised to the user: metadata and all elements agree. Strides, offset, read-only flag and alignment are not
mentioned; strides and offset only serve to find the element with given coordinates. -/
def SameContent (p : V → V → Bool) (a b : CmpVar V) : Prop :=
  a.unit = b.unit ∧ a.view.dims = b.view.dims ∧ a.dtype = b.dtype ∧ (a.variances.isSome ↔ b.variances.isSome) ∧
  ∀ c, InDims a.view.dims c → p (valueAt a c) (valueAt b c) = true ∧ VariancesAgree p a b c

/-- What variables satisfy: a valid object, a well-formed view of at most six dimensions (`NDIM_OP_MAX`). -/
structure CmpVar.Ok (a : CmpVar V) : Prop where
  valid : a.valid = true
  wf : Sizes.WF a.view.dims
  strides : a.view.strides.length = a.view.dims.length
  ndim : a.view.dims.length ≤ 6

/-! ### Helpers -/

theorem elementsOf_eq {v : View} (buf : Int → V) (hw : Sizes.WF v.dims) (hl : v.strides.length = v.dims.length)
    (hn : v.dims.length ≤ 6) :
    elementsOf v buf = .ok ((List.range (Dims.volume v.dims).toNat).map
      (fun (i : Nat) => buf (v.addr (coordsOf v.dims i)))) := by
  obtain ⟨b, hb⟩ := C09_iterator_exists v.dims v.strides 0 hn
  obtain ⟨e, he⟩ := C09_iterator_exists v.dims v.strides (Dims.volume v.dims) hn
  have hv : 0 ≤ Dims.volume v.dims := volume_nonneg hw.2
  have hc := C09_iteration v.dims v.strides 0 b e hw hl (Int.le_refl _) hv hb he ((Dims.volume v.dims).toNat + 1) (by omega)
  simp only [elementsOf, hb, he, bind, Except.bind, hc]
  simp only [List.map_map, Int.sub_zero]
  refine congrArg Except.ok (List.map_congr_left (fun i _ => ?_))
  simp [View.addr, Function.comp]

theorem stdEqual_map {ι : Type} (p : V → V → Bool) (f g : ι → V) : ∀ (l : List ι),
    stdEqual p (l.map f) (l.map g) = true ↔ ∀ i ∈ l, p (f i) (g i) = true
  | [] => by simp [stdEqual]
  | i :: l => by simp [stdEqual, stdEqual_map p f g l]

theorem equalsImpl_iff {v w : View} (p : V → V → Bool) (x y : Int → V) (hw : Sizes.WF v.dims)
    (hl : v.strides.length = v.dims.length) (hn : v.dims.length ≤ 6) (hd : v.dims = w.dims)
    (hl' : w.strides.length = w.dims.length) :
    ∃ r, equalsImpl p v w x y = .ok r ∧
      (r = true ↔ ∀ c, InDims v.dims c → p (x (v.addr c)) (y (w.addr c)) = true) := by
  have e1 := elementsOf_eq x hw hl hn
  have e2 := elementsOf_eq y (v := w) (by rw [← hd]; exact hw) hl' (by rw [← hd]; exact hn)
  refine ⟨_, by simp only [equalsImpl, e1, e2, bind, Except.bind]; rfl, ?_⟩
  rw [← hd, stdEqual_map]
  constructor
  · intro h c hc
    have hb := position_bounds hc
    have := h (position v.dims c).toNat (List.mem_range.2 (by omega))
    rw [show (((position v.dims c).toNat : Nat) : Int) = position v.dims c by omega] at this
    have hcc := coordsOf_position hw.1 hc
    have a1 : v.addr (coordsOf v.dims (position v.dims c)) = v.addr c := by
      simp only [View.addr, addrAux_congr hcc]
    have a2 : w.addr (coordsOf v.dims (position v.dims c)) = w.addr c := by
      simp only [View.addr]; rw [← hd, addrAux_congr hcc]
    rwa [a1, a2] at this
  · intro h i hi
    have := List.mem_range.1 hi
    exact h _ (coordsOf_inDims hw (by omega) (by omega))

theorem inDims_volume_zero {s : Dims} (h : Dims.volume s = 0) (c : Dim → Int) : ¬ InDims s c := by
  intro hc
  have := position_bounds hc
  omega

/-- The part of `compare` after the test for identity. -/
theorem compare_content (p : V → V → Bool) (nan : Bool) (a b : CmpVar V) (ha : CmpVar.Ok a) (hb : CmpVar.Ok b)
    (hs : (nan && a.isSame b) = false) :
    ∃ r, compareVars p nan a b = .ok r ∧ (r = true ↔ SameContent p a b) := by
  have hv : (!a.valid || !b.valid) = false := by simp [ha.valid, hb.valid]
  unfold compareVars
  rw [if_neg (by simp [hs]), if_neg (by simp [hv])]
  by_cases hu : a.unit = b.unit
  swap
  · exact ⟨false, if_pos hu, by simp [SameContent, hu]⟩
  rw [if_neg (by simp [hu])]
  by_cases hd : a.view.dims = b.view.dims
  swap
  · exact ⟨false, if_pos (by simp [Dims.eqDims, hd]), by simp [SameContent, hd]⟩
  rw [if_neg (by simp [Dims.eqDims, hd])]
  by_cases ht : a.dtype = b.dtype
  swap
  · exact ⟨false, if_pos ht, by simp [SameContent, ht]⟩
  rw [if_neg (by simp [ht])]
  by_cases hvar : a.variances.isSome = b.variances.isSome
  swap
  · refine ⟨false, if_pos (by simpa using hvar), ?_⟩
    constructor
    · simp
    · intro h
      exact absurd (Bool.eq_iff_iff.2 h.2.2.2.1) hvar
  rw [if_neg (by simp [hvar])]
  by_cases h0 : Dims.volume a.view.dims = 0
  · refine ⟨true, if_pos h0, ?_⟩
    simp only [true_iff]
    exact ⟨hu, hd, ht, by rw [hvar], fun c hc => absurd hc (inDims_volume_zero h0 c)⟩
  rw [if_neg h0]
  obtain ⟨r1, e1, h1⟩ := equalsImpl_iff p a.values b.values ha.wf ha.strides ha.ndim hd hb.strides
  unfold equalsData
  simp only [e1, bind, Except.bind]
  cases r1 with
  | false =>
    refine ⟨false, by simp, ?_⟩
    constructor
    · simp
    · intro h
      exact absurd (h1.2 (fun c hc => (h.2.2.2.2 c hc).1)) (by simp)
  | true =>
    have hval := h1.1 rfl
    rw [if_pos rfl]
    unfold equalsVariances
    cases hx : a.variances with
    | none =>
      refine ⟨true, rfl, ?_⟩
      simp only [true_iff]
      refine ⟨hu, hd, ht, by rw [hvar], fun c hc => ⟨hval c hc, ?_⟩⟩
      intro x y hx' _
      rw [hx] at hx'; cases hx'
    | some x =>
      cases hy : b.variances with
      | none => rw [hx, hy] at hvar; simp at hvar
      | some y =>
        obtain ⟨r2, e2, h2⟩ := equalsImpl_iff p x y ha.wf ha.strides ha.ndim hd hb.strides
        refine ⟨r2, e2, ?_⟩
        rw [h2]
        constructor
        · intro h
          refine ⟨hu, hd, ht, by rw [hvar], fun c hc => ⟨hval c hc, ?_⟩⟩
          intro x' y' hx' hy'
          rw [hx] at hx'; rw [hy] at hy'; cases hx'; cases hy'
          exact h c hc
        · intro h c hc
          exact (h.2.2.2.2 c hc).2 x y hx hy

/-! ### Variables -/

/-- **C54** (`==`): the comparison of two variables always gives a result, which is true exactly if unit, dims, dtype,
presence of variances and all elements agree. `p` is `==` of the elements, arbitrary. -/
theorem C54_equal_iff (p : V → V → Bool) (a b : CmpVar V) (ha : CmpVar.Ok a) (hb : CmpVar.Ok b) :
    ∃ r, compareVars p false a b = .ok r ∧ (r = true ↔ SameContent p a b) :=
  compare_content p false a b ha hb (by simp)

/-- **C54** (`equals_nan`): the same with a comparison of elements for which every element equals itself. The shortcut for
identical views is right because variables sharing an object share unit, dtype and buffers. -/
theorem C54_equals_nan_iff (p : V → V → Bool) (hp : ∀ x, p x x = true) (a b : CmpVar V) (ha : CmpVar.Ok a) (hb : CmpVar.Ok b)
    (hobj : a.obj = b.obj → a.unit = b.unit ∧ a.dtype = b.dtype ∧ a.values = b.values ∧ a.variances = b.variances) :
    ∃ r, compareVars p true a b = .ok r ∧ (r = true ↔ SameContent p a b) := by
  cases hs : a.isSame b with
  | false => exact compare_content p true a b ha hb (by simp [hs])
  | true =>
    refine ⟨true, by simp [compareVars, hs], ?_⟩
    simp only [CmpVar.isSame, Bool.and_eq_true, decide_eq_true_eq, beq_iff_eq] at hs
    obtain ⟨⟨⟨h1, h2⟩, h3⟩, h4⟩ := hs
    obtain ⟨hu, ht, hv, hvv⟩ := hobj h4
    simp only [true_iff]
    refine ⟨hu, h1, ht, by rw [hvv], fun c _ => ?_⟩
    have e : a.view.addr c = b.view.addr c := by simp [View.addr, h1, h2, h3]
    refine ⟨by simp [valueAt, hv, e, hp], ?_⟩
    intro x y hx hy
    rw [hvv, hy] at hx
    cases hx
    rw [e]; exact hp _

/-- **C54** (memory layout is irrelevant): comparing views of the same elements gives the same answer, whatever their strides,
offsets, objects, read-only flags and alignment. -/
theorem C54_layout (p : V → V → Bool) (a a' b b' : CmpVar V) (ha : CmpVar.Ok a) (ha' : CmpVar.Ok a') (hb : CmpVar.Ok b)
    (hb' : CmpVar.Ok b')
    (hma : a.unit = a'.unit ∧ a.view.dims = a'.view.dims ∧ a.dtype = a'.dtype)
    (hmb : b.unit = b'.unit ∧ b.view.dims = b'.view.dims ∧ b.dtype = b'.dtype)
    (hva : ∀ c, InDims a.view.dims c → valueAt a c = valueAt a' c ∧
      a.variances.map (· (a.view.addr c)) = a'.variances.map (· (a'.view.addr c)))
    (hvb : ∀ c, InDims b.view.dims c → valueAt b c = valueAt b' c ∧
      b.variances.map (· (b.view.addr c)) = b'.variances.map (· (b'.view.addr c)))
    (hpa : a.variances.isSome = a'.variances.isSome) (hpb : b.variances.isSome = b'.variances.isSome) :
    compareVars p false a b = compareVars p false a' b' := by
  obtain ⟨r, e, h⟩ := C54_equal_iff p a b ha hb
  obtain ⟨r', e', h'⟩ := C54_equal_iff p a' b' ha' hb'
  rw [e, e']
  refine congrArg Except.ok (Bool.eq_iff_iff.2 ?_)
  rw [h, h']
  unfold SameContent
  rw [hma.1, hmb.1, hma.2.1, hmb.2.1, hma.2.2, hmb.2.2, hpa, hpb]
  refine and_congr_right (fun _ => and_congr_right (fun hd => and_congr_right (fun _ => and_congr_right (fun _ => ?_))))
  refine forall_congr' (fun c => ?_)
  refine imp_congr_right (fun hc => ?_)
  have h1 := hva c (by rw [hma.2.1]; exact hc)
  have h2 := hvb c (by rw [hmb.2.1, ← hd]; exact hc)
  rw [h1.1, h2.1]
  refine and_congr_right (fun _ => ?_)
  unfold VariancesAgree
  have g1 := h1.2
  have g2 := h2.2
  revert g1 g2
  cases a.variances <;> cases a'.variances <;> cases b.variances <;> cases b'.variances <;> simp <;>
    (intros; simp_all)

/-- `==` of variables is symmetric if `==` of elements is. -/
theorem C54_symmetric (p : V → V → Bool) (hp : ∀ x y, p x y = p y x) (a b : CmpVar V) (ha : CmpVar.Ok a) (hb : CmpVar.Ok b) :
    compareVars p false a b = compareVars p false b a := by
  obtain ⟨r, e, h⟩ := C54_equal_iff p a b ha hb
  obtain ⟨r', e', h'⟩ := C54_equal_iff p b a hb ha
  rw [e, e']
  refine congrArg Except.ok (Bool.eq_iff_iff.2 ?_)
  rw [h, h']
  have key : ∀ a b : CmpVar V, SameContent p a b → SameContent p b a := by
    intro a b ⟨h1, h2, h3, h4, h5⟩
    refine ⟨h1.symm, h2.symm, h3.symm, h4.symm, fun c hc => ?_⟩
    obtain ⟨g1, g2⟩ := h5 c (by rw [h2]; exact hc)
    refine ⟨by rw [hp]; exact g1, fun x y hx hy => ?_⟩
    rw [hp]; exact g2 y x hy hx
  exact ⟨key a b, key b a⟩

/-- `==` of variables is transitive if `==` of elements is. -/
theorem C54_transitive (p : V → V → Bool) (hp : ∀ x y z, p x y = true → p y z = true → p x z = true) (a b d : CmpVar V)
    (ha : CmpVar.Ok a) (hb : CmpVar.Ok b) (hd : CmpVar.Ok d) (h1 : compareVars p false a b = .ok true)
    (h2 : compareVars p false b d = .ok true) : compareVars p false a d = .ok true := by
  obtain ⟨r, e, h⟩ := C54_equal_iff p a b ha hb
  obtain ⟨r', e', h'⟩ := C54_equal_iff p b d hb hd
  obtain ⟨r'', e'', h''⟩ := C54_equal_iff p a d ha hd
  rw [e] at h1; rw [e'] at h2
  cases h1; cases h2
  obtain ⟨a1, a2, a3, a4, a5⟩ := h.1 rfl
  obtain ⟨b1, b2, b3, b4, b5⟩ := h'.1 rfl
  rw [e'']
  refine congrArg Except.ok (h''.2 ⟨a1.trans b1, a2.trans b2, a3.trans b3, a4.trans b4, fun c hc => ?_⟩)
  obtain ⟨g1, g2⟩ := a5 c hc
  obtain ⟨k1, k2⟩ := b5 c (by rw [← a2]; exact hc)
  refine ⟨hp _ _ _ g1 k1, fun x z hx hz => ?_⟩
  have : b.variances.isSome := by rw [← a4, hx]; rfl
  obtain ⟨y, hy⟩ := Option.isSome_iff_exists.1 this
  exact hp _ _ _ (g2 x y hx hy) (k2 y z hy hz)

/-- Element comparison of `equals_nan` treats every element as equal to itself, given that `==` does so except for
NaN. -/
theorem C54_equals_nan_element (isnan : V → Bool) (eq : V → V → Bool) (h : ∀ x, isnan x = false → eq x x = true) (x : V) :
    equalsNanElem isnan eq x x = true := by
  unfold equalsNanElem
  by_cases hx : isnan x
  · simp [hx]
  · simp [hx, h x (by simpa using hx)]

/-- Element comparison of `equals_nan`, given that `==` is equality except for NaN: it is equality, with all NaN alike. -/
theorem C54_equals_nan_element_iff (isnan : V → Bool) (eq : V → V → Bool)
    (h : ∀ x y, eq x y = true ↔ x = y ∧ isnan x = false) (x y : V) :
    equalsNanElem isnan eq x y = true ↔ x = y ∨ (isnan x = true ∧ isnan y = true) := by
  unfold equalsNanElem
  by_cases hx : isnan x = true <;> by_cases hy : isnan y = true
  · simp [hx, hy]
  · simp only [Bool.not_eq_true] at hy
    simp only [hx, hy, Bool.and_false, Bool.false_eq_true, if_false, h, and_false, or_false]
    constructor
    · rintro ⟨-, h⟩; cases h
    · rintro rfl; rw [hx] at hy; cases hy
  · simp only [Bool.not_eq_true] at hx
    simp only [hx, hy, Bool.false_and, Bool.false_eq_true, if_false, h, false_and, and_true, or_false]
  · simp only [Bool.not_eq_true] at hx hy
    simp [hx, hy, h]

/-- Floating-point numbers for the examples: `none` is NaN. -/
def nanEq (x y : Option Int) : Bool := x.isSome && y.isSome && decide (x = y)

/-- `a == a` is false for a variable with a NaN, as for floating-point numbers, although it "has the same elements". -/
theorem C54_wrong_for_nan : ∃ a : CmpVar (Option Int), CmpVar.Ok a ∧ compareVars nanEq false a a = .ok false ∧
    compareVars (equalsNanElem Option.isNone nanEq) true a a = .ok true := by
  refine ⟨⟨true, 0, 0, 0, ⟨[(2, 2)], [1], 0, false⟩, true, fun i => if i = 0 then some 1 else none, none⟩, ?_, by decide, by decide⟩
  exact ⟨rfl, by simp [Sizes.WF], rfl, by decide⟩

-- a transposed, offset view with variances equals its contiguous copy, and differs after changing one variance
example : let a : CmpVar Int := ⟨true, 0, 3, 1, ⟨[(2, 3), (3, 2)], [1, 3], 2, false⟩, true, fun i => i, some (fun i => i * i)⟩
    let b : CmpVar Int := ⟨true, 1, 3, 1, ⟨[(2, 3), (3, 2)], [2, 1], 0, true⟩, false,
      fun i => 2 + i / 2 + 3 * (i % 2), some (fun i => (2 + i / 2 + 3 * (i % 2)) ^ 2)⟩
    let d : CmpVar Int := { b with variances := some (fun i => if i = 3 then 0 else (2 + i / 2 + 3 * (i % 2)) ^ 2) }
    compareVars (fun x y => decide (x = y)) false a b = .ok true ∧
    compareVars (fun x y => decide (x = y)) false a d = .ok false := by decide

private def cmpA : CmpVar Int :=
  ⟨true, 0, 3, 1, ⟨[(2, 3), (3, 2)], [1, 3], 2, false⟩, true, fun i => i, some (fun i => i * i)⟩

private def cmpB : CmpVar Int :=
  ⟨true, 1, 3, 1, ⟨[(2, 3), (3, 2)], [2, 1], 0, true⟩, false, fun i => 2 + i / 2 + 3 * (i % 2),
    some (fun i => (2 + i / 2 + 3 * (i % 2)) * (2 + i / 2 + 3 * (i % 2)))⟩

private theorem cmpA_ok : CmpVar.Ok cmpA := ⟨rfl, by simp [cmpA, Sizes.WF, labels], rfl, by decide⟩
private theorem cmpB_ok : CmpVar.Ok cmpB := ⟨rfl, by simp [cmpB, Sizes.WF, labels], rfl, by decide⟩

private theorem cmpAB : ∀ c, InDims cmpA.view.dims c → valueAt cmpA c = valueAt cmpB c ∧
    cmpA.variances.map (· (cmpA.view.addr c)) = cmpB.variances.map (· (cmpB.view.addr c)) := by
  intro c h
  have h2 := h 2 3 (by simp [cmpA])
  have h3 := h 3 2 (by simp [cmpA])
  have e1 : cmpA.view.addr c = 2 + (c 2 + c 3 * 3) := by simp [cmpA, View.addr, addrAux]
  have e2 : cmpB.view.addr c = c 2 * 2 + c 3 := by simp [cmpB, View.addr, addrAux]
  have e3 : 2 + cmpB.view.addr c / 2 + 3 * (cmpB.view.addr c % 2) = cmpA.view.addr c := by rw [e1, e2]; omega
  refine ⟨e3.symm, ?_⟩
  simp [cmpA, cmpB] at e3 ⊢
  rw [e3]

example := C54_equal_iff (fun x y : Int => decide (x = y)) cmpA cmpB cmpA_ok cmpB_ok
example := C54_equals_nan_iff (fun x y : Int => decide (x = y)) (by simp) cmpA cmpB cmpA_ok cmpB_ok
  (fun h => absurd h (by decide))
example := C54_layout (fun x y : Int => decide (x = y)) cmpA cmpB cmpA cmpA cmpA_ok cmpB_ok cmpA_ok cmpA_ok
  ⟨rfl, rfl, rfl⟩ ⟨rfl, rfl, rfl⟩ cmpAB (fun _ _ => ⟨rfl, rfl⟩) rfl rfl
example := C54_symmetric (fun x y : Int => decide (x = y)) (fun x y => by simp [eq_comm]) cmpA cmpB cmpA_ok cmpB_ok
example := C54_transitive (fun x y : Int => decide (x = y)) (by simp) cmpA cmpB cmpA cmpA_ok cmpB_ok cmpA_ok (by decide)
  (by decide)
example := C54_equals_nan_element_iff Option.isNone nanEq (fun x y => by
  cases x <;> cases y <;> simp [nanEq]) (some 3) none
example := C54_equals_nan_element Option.isNone nanEq (fun x h => by cases x <;> simp_all [nanEq]) (some 3)

/-! ### Dictionaries, data arrays, datasets -/

section Dict
variable {α : Type}

/-- The property of dictionaries: the same keys, with values that compare equal. -/
def SameItems (cmp : α → α → Bool) (a b : List (Dim × α)) : Prop :=
  (∀ k, k ∈ a.map Prod.fst ↔ k ∈ b.map Prod.fst) ∧
  ∀ k x y, (k, x) ∈ a → (k, y) ∈ b → cmp x y = true

theorem itemInOther_iff (cmp : α → α → Bool) {b : List (Dim × α)} (hb : (b.map Prod.fst).Nodup) (p : Dim × α) :
    itemInOther cmp b p = true ↔ ∃ y, (p.1, y) ∈ b ∧ cmp p.2 y = true := by
  unfold itemInOther
  cases h : lookupEntry b p.1 with
  | none =>
    simp only [Bool.false_eq_true, false_iff]
    rintro ⟨y, hy, _⟩
    exact lookup_none.1 h (List.mem_map.2 ⟨_, hy, rfl⟩)
  | some y =>
    constructor
    · intro hc; exact ⟨y, lookup_mem h, hc⟩
    · rintro ⟨y', hy', hc⟩
      have := lookup_of_mem hb hy'
      rw [h] at this; cases this
      exact hc

/-- **C54** (dictionaries): two dictionaries (keys are unique) are equal exactly if they have the same keys and equal
values. The order of insertion does not matter. -/
theorem C54_dict_iff (cmp : α → α → Bool) (a b : List (Dim × α)) (ha : (a.map Prod.fst).Nodup) (hb : (b.map Prod.fst).Nodup) :
    dictEq cmp a b = true ↔ SameItems cmp a b := by
  unfold dictEq
  simp only [Bool.and_eq_true, beq_iff_eq, List.all_eq_true]
  constructor
  · rintro ⟨hl, h⟩
    have hsub : a.map Prod.fst ⊆ b.map Prod.fst := by
      intro k hk
      obtain ⟨p, hp, rfl⟩ := List.mem_map.1 hk
      obtain ⟨y, hy, _⟩ := (itemInOther_iff cmp hb p).1 (h p hp)
      exact List.mem_map.2 ⟨_, hy, rfl⟩
    have hperm := (List.subperm_of_subset ha hsub).perm_of_length_le (by simp [hl])
    refine ⟨fun k => hperm.mem_iff, fun k x y hx hy => ?_⟩
    obtain ⟨y', hy', hc⟩ := (itemInOther_iff cmp hb _).1 (h _ hx)
    have e1 := lookup_of_mem hb hy
    have e2 := lookup_of_mem hb hy'
    rw [e1] at e2; cases e2
    exact hc
  · rintro ⟨hk, hc⟩
    constructor
    · have := ((List.perm_ext_iff_of_nodup ha hb).2 hk).length_eq
      simpa using this
    · intro p hp
      refine (itemInOther_iff cmp hb p).2 ?_
      obtain ⟨q, hq, he⟩ := List.mem_map.1 ((hk p.1).1 (List.mem_map.2 ⟨p, hp, rfl⟩))
      have hq' : (p.1, q.2) ∈ b := by rw [← he]; exact hq
      exact ⟨q.2, hq', hc p.1 p.2 q.2 hp hq'⟩

/-- **C54** (insertion order): reordering the items of either dictionary does not change the result. -/
theorem C54_dict_order (cmp : α → α → Bool) (a a' b b' : List (Dim × α)) (ha : (a.map Prod.fst).Nodup)
    (hb : (b.map Prod.fst).Nodup) (pa : a.Perm a') (pb : b.Perm b') : dictEq cmp a b = dictEq cmp a' b' := by
  refine Bool.eq_iff_iff.2 ?_
  rw [C54_dict_iff cmp a b ha hb, C54_dict_iff cmp a' b' ((pa.map _).nodup_iff.1 ha) ((pb.map _).nodup_iff.1 hb)]
  unfold SameItems
  refine and_congr (forall_congr' (fun k => ?_)) (forall_congr' (fun k => forall_congr' (fun x => forall_congr' (fun y => ?_))))
  · rw [(pa.map _).mem_iff, (pb.map _).mem_iff]
  · rw [pa.mem_iff, pb.mem_iff]

/-- Comparison of dictionaries is symmetric. -/
theorem C54_dict_symmetric (cmp : α → α → Bool) (hc : ∀ x y, cmp x y = cmp y x) (a b : List (Dim × α))
    (ha : (a.map Prod.fst).Nodup) (hb : (b.map Prod.fst).Nodup) : dictEq cmp a b = dictEq cmp b a := by
  refine Bool.eq_iff_iff.2 ?_
  rw [C54_dict_iff cmp a b ha hb, C54_dict_iff cmp b a hb ha]
  constructor
  · intro ⟨h1, h2⟩; exact ⟨fun k => (h1 k).symm, fun k x y hx hy => by rw [hc]; exact h2 k y x hy hx⟩
  · intro ⟨h1, h2⟩; exact ⟨fun k => (h1 k).symm, fun k x y hx hy => by rw [hc]; exact h2 k y x hy hx⟩

/-- Comparison of dictionaries is reflexive (for `equals_nan`, or `==` without NaN). -/
theorem C54_dict_reflexive (cmp : α → α → Bool) (hc : ∀ x, cmp x x = true) (a : List (Dim × α))
    (ha : (a.map Prod.fst).Nodup) : dictEq cmp a a = true := by
  rw [C54_dict_iff cmp a a ha ha]
  refine ⟨fun _ => Iff.rfl, fun k x y hx hy => ?_⟩
  have e1 := lookup_of_mem ha hx
  have e2 := lookup_of_mem ha hy
  rw [e1] at e2; cases e2
  exact hc x

/-- Comparison of dictionaries is transitive. -/
theorem C54_dict_transitive (cmp : α → α → Bool) (hc : ∀ x y z, cmp x y = true → cmp y z = true → cmp x z = true)
    (a b d : List (Dim × α)) (ha : (a.map Prod.fst).Nodup) (hb : (b.map Prod.fst).Nodup) (hd : (d.map Prod.fst).Nodup)
    (h1 : dictEq cmp a b = true) (h2 : dictEq cmp b d = true) : dictEq cmp a d = true := by
  rw [C54_dict_iff _ _ _ ha hb] at h1
  rw [C54_dict_iff _ _ _ hb hd] at h2
  rw [C54_dict_iff _ _ _ ha hd]
  refine ⟨fun k => (h1.1 k).trans (h2.1 k), fun k x z hx hz => ?_⟩
  obtain ⟨q, hq, he⟩ := List.mem_map.1 ((h1.1 k).1 (List.mem_map.2 ⟨_, hx, rfl⟩))
  have hq' : (k, q.2) ∈ b := by rw [← he]; exact hq
  exact hc _ _ _ (h1.2 k x q.2 hx hq') (h2.2 k q.2 z hq' hz)

end Dict

/-- **C54** (`Sizes`): sizes are equal exactly if they have the same labels with the same extents, in any order. -/
theorem C54_sizes (a b : Sizes) (ha : Sizes.WF a) (hb : Sizes.WF b) :
    dictEq (fun x y => decide (x = y)) a b = true ↔ ∀ p, p ∈ a ↔ p ∈ b := by
  rw [C54_dict_iff _ a b ha.1 hb.1]
  constructor
  · rintro ⟨h1, h2⟩ ⟨k, n⟩
    constructor
    · intro h
      obtain ⟨q, hq, he⟩ := List.mem_map.1 ((h1 k).1 (List.mem_map.2 ⟨_, h, rfl⟩))
      have hq' : (k, q.2) ∈ b := by rw [← he]; exact hq
      have := h2 k n q.2 h hq'
      rw [of_decide_eq_true this]; exact hq'
    · intro h
      obtain ⟨q, hq, he⟩ := List.mem_map.1 ((h1 k).2 (List.mem_map.2 ⟨_, h, rfl⟩))
      have hq' : (k, q.2) ∈ a := by rw [← he]; exact hq
      have := h2 k q.2 n hq' h
      rw [← of_decide_eq_true this]; exact hq'
  · intro h
    refine ⟨fun k => ?_, fun k x y hx hy => ?_⟩
    · simp only [List.mem_map]
      exact ⟨fun ⟨p, hp, e⟩ => ⟨p, (h p).1 hp, e⟩, fun ⟨p, hp, e⟩ => ⟨p, (h p).2 hp, e⟩⟩
    · have e1 := lookup_of_mem hb.1 ((h _).1 hx)
      have e2 := lookup_of_mem hb.1 hy
      rw [e1] at e2; cases e2; simp

/-- Keys of the dictionaries of a data array are unique. -/
structure CmpArray.Ok (a : CmpArray V) : Prop where
  coords : (a.coords.map Prod.fst).Nodup
  masks : (a.masks.map Prod.fst).Nodup
  attrs : (a.attrs.map Prod.fst).Nodup

/-- The same names, and entries with the same name have equal variables and the same alignment flag. -/
def SameEntries (eq : V → V → Bool) (a b : List (Dim × (V × Bool))) : Prop :=
  (∀ k, k ∈ a.map Prod.fst ↔ k ∈ b.map Prod.fst) ∧
  ∀ k x ax y ay, (k, (x, ax)) ∈ a → (k, (y, ay)) ∈ b → eq x y = true ∧ ax = ay

/-- Equal data and equal coords, masks and attrs. -/
def SameArray (eq : V → V → Bool) (a b : CmpArray V) : Prop :=
  eq a.data b.data = true ∧ SameEntries eq a.coords b.coords ∧ SameEntries eq a.masks b.masks ∧ SameEntries eq a.attrs b.attrs

theorem sameEntries_iff (eq : V → V → Bool) (a b : List (Dim × (V × Bool))) :
    SameItems (itemCmp eq) a b ↔ SameEntries eq a b := by
  unfold SameItems SameEntries itemCmp
  refine and_congr_right fun _ => ⟨fun h k x ax y ay hx hy => ?_, fun h k x y hx hy => ?_⟩
  · simpa using h k _ _ hx hy
  · simpa using h k x.1 x.2 y.1 y.2 hx hy

/-- **C54** (data arrays): equal exactly if data, coords, masks and attrs are, with equal alignment flags. The name is not
compared. `eq` is the comparison of variables; `hasVar` a property on which equal variables agree. -/
theorem C54_data_array_iff (hasVar : V → Bool) (eq : V → V → Bool) (hv : ∀ x y, eq x y = true → hasVar x = hasVar y)
    (a b : CmpArray V) (ha : CmpArray.Ok a) (hb : CmpArray.Ok b) :
    arrayEq hasVar eq a b = true ↔ SameArray eq a b := by
  unfold SameArray
  rw [← sameEntries_iff, ← sameEntries_iff, ← sameEntries_iff, ← C54_dict_iff _ _ _ ha.coords hb.coords,
    ← C54_dict_iff _ _ _ ha.masks hb.masks, ← C54_dict_iff _ _ _ ha.attrs hb.attrs]
  unfold arrayEq
  by_cases h0 : hasVar a.data = hasVar b.data
  · rw [if_neg (by simp [h0])]
    cases dictEq (itemCmp eq) a.coords b.coords <;> cases dictEq (itemCmp eq) a.masks b.masks <;>
      cases dictEq (itemCmp eq) a.attrs b.attrs <;> simp
  · rw [if_pos (by simpa using h0)]
    constructor
    · simp
    · intro h; exact absurd (hv _ _ h.1) h0

/-- **C54** (datasets): equal exactly if the coords are and there are items of the same names, which are equal as data arrays. -/
theorem C54_dataset_iff (hasVar : V → Bool) (eq : V → V → Bool) (hv : ∀ x y, eq x y = true → hasVar x = hasVar y)
    (a b : CmpDataset V) (hac : (a.coords.map Prod.fst).Nodup) (hbc : (b.coords.map Prod.fst).Nodup)
    (hai : (a.items.map Prod.fst).Nodup) (hbi : (b.items.map Prod.fst).Nodup)
    (ha : ∀ p ∈ a.items, CmpArray.Ok p.2) (hb : ∀ p ∈ b.items, CmpArray.Ok p.2) :
    datasetEq hasVar eq a b = true ↔ SameEntries eq a.coords b.coords ∧
      (∀ k, k ∈ a.items.map Prod.fst ↔ k ∈ b.items.map Prod.fst) ∧
      ∀ k x y, (k, x) ∈ a.items → (k, y) ∈ b.items → SameArray eq x y := by
  have hitems : SameItems (arrayEq hasVar eq) a.items b.items ↔ (∀ k, k ∈ a.items.map Prod.fst ↔ k ∈ b.items.map Prod.fst) ∧
      ∀ k x y, (k, x) ∈ a.items → (k, y) ∈ b.items → SameArray eq x y := by
    unfold SameItems
    refine and_congr_right fun _ => forall_congr' fun k => forall_congr' fun x => forall_congr' fun y =>
      forall_congr' fun hx => forall_congr' fun hy => C54_data_array_iff hasVar eq hv x y (ha _ hx) (hb _ hy)
  rw [← hitems, ← sameEntries_iff, ← C54_dict_iff _ _ _ hac hbc, ← C54_dict_iff _ _ _ hai hbi]
  unfold datasetEq
  by_cases hl : a.items.length = b.items.length
  · rw [if_neg (by simp [hl])]
    cases dictEq (itemCmp eq) a.coords b.coords <;> simp [dictEq, hl]
  · rw [if_pos hl]; simp [dictEq, hl]

-- insertion order is irrelevant, alignment is not
example : dictEq (itemCmp (fun x y : Int => decide (x = y))) [(2, (5, true)), (3, (6, false))] [(3, (6, false)), (2, (5, true))] = true ∧
    dictEq (itemCmp (fun x y : Int => decide (x = y))) [(2, (5, true))] [(2, (5, false))] = false := by decide

example : arrayEq (fun _ => true) (fun x y : Int => decide (x = y)) ⟨0, 7, [(2, (5, true)), (3, (6, true))], [(1, (0, true))], []⟩
    ⟨1, 7, [(3, (6, true)), (2, (5, true))], [(1, (0, true))], []⟩ = true := by decide

private def intEq (x y : Int) : Bool := decide (x = y)

example := C54_dict_iff (itemCmp intEq) [(2, (5, true)), (3, (6, false))] [(3, (6, false)), (2, (5, true))] (by decide) (by decide)
example := C54_dict_order (itemCmp intEq) [(2, (5, true)), (3, (6, false))] [(3, (6, false)), (2, (5, true))]
  [(2, (5, true)), (3, (7, false))] [(3, (7, false)), (2, (5, true))] (by decide) (by decide) (by decide) (by decide)
example := C54_dict_symmetric intEq (fun x y => by simp [intEq, eq_comm]) [(2, 5), (3, 6)] [(3, 6), (2, 4)] (by decide) (by decide)
example := C54_dict_reflexive intEq (by simp [intEq]) [(2, 5), (3, 6)] (by decide)
example := C54_dict_transitive intEq (by simp [intEq]) [(2, 5), (3, 6)] [(3, 6), (2, 5)] [(2, 5), (3, 6)] (by decide) (by decide)
  (by decide) (by decide) (by decide)
example := C54_sizes [(2, 5), (3, 6)] [(3, 6), (2, 5)] (by simp [Sizes.WF, labels]) (by simp [Sizes.WF, labels])

private def cmpArr (name : Nat) (v : Int) : CmpArray Int := ⟨name, v, [(2, (5, true)), (3, (6, true))], [(1, (0, true))], []⟩

example := C54_data_array_iff (fun _ => true) intEq (fun _ _ _ => rfl) (cmpArr 0 7) (cmpArr 1 7)
  ⟨by decide, by decide, by decide⟩ ⟨by decide, by decide, by decide⟩
example := C54_dataset_iff (fun _ => true) intEq (fun _ _ _ => rfl) ⟨[(2, (5, true))], [(8, cmpArr 0 7), (9, cmpArr 0 8)]⟩
  ⟨[(2, (5, true))], [(9, cmpArr 0 8), (8, cmpArr 1 7)]⟩ (by decide) (by decide) (by decide) (by decide)
  (by simp; exact ⟨⟨by decide, by decide, by decide⟩, ⟨by decide, by decide, by decide⟩⟩)
  (by simp; exact ⟨⟨by decide, by decide, by decide⟩, ⟨by decide, by decide, by decide⟩⟩)

end Scipp.Props
