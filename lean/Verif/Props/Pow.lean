import Verif.Model.Pow
import Verif.Lemmas.View
import Verif.Lemmas.View2
import Verif.Lemmas.Bins2
import Verif.Props.Sizes
import Verif.Props.Unit
import Verif.Props.FloorDivide
import Mathlib.Tactic.NormNum
/-
**C67**: powers of variables, `pow(base, exponent)`, `pow(base, exponent, out)` and `base **= exponent`.
-/
namespace Scipp.Props
open Pow Sizes
open _root_.Scipp.MUnit (one)
variable {n : Nat}

/-- A variable: valid dims, elements that depend on the coordinates of these dims only, integers if the type is an integer type. -/
structure PVar.Valid (x : PVar n) : Prop where
  wf : WF x.arr.dims
  valid : Dim.invalid ∉ labels x.arr.dims
  own : ∀ c c' : Dim → Int, (∀ d ∈ labels x.arr.dims, c d = c' d) → x.arr.val c = x.arr.val c'
  int : x.dtype.isInt = true → ∀ c, ∃ k : ℤ, x.arr.val c = k

/-- `x` is the power of `b` by `e`: the integer power if `e` is an integer, whatever `std::pow` (`fp`) gives otherwise. -/
def IsPower (fp : ℚ → ℚ → ℚ) (b e x : ℚ) : Prop := (∀ k : ℤ, e = k → x = b ^ k) ∧ ((∀ k : ℤ, e ≠ k) → x = fp b e)

/-- `std::pow` is correct for integer exponents. -/
def FpCorrect (fp : ℚ → ℚ → ℚ) : Prop := ∀ (b : ℚ) (k : ℤ), fp b k = b ^ k

/-- The unit of the power by `e` of a variable with unit `u`: one for unit one. Otherwise the exponent is a scalar integer `k` and the
unit is the `k`-th power. -/
def IsPowerUnit (u : MUnit n) (e : Arr ℚ) (x : MUnit n) : Prop :=
  (u = one → x = one) ∧
  (u ≠ one → e.dims = [] ∧ ∃ k : ℤ, (∀ c, e.val c = k) ∧
    (-2 ^ 31 ≤ k ∧ k < 2 ^ 31 → x = u.map fun p => ⟨p.mult ^ k, fun i => p.exps i * k⟩))

private theorem powElem_isPower {fp : ℚ → ℚ → ℚ} (hf : FpCorrect fp) {t : PType} {b e : ℚ} (h : t.isInt = true → ∃ k : ℤ, e = k) :
    IsPower fp b e (powElem fp t b e) := by
  unfold powElem
  split
  · rename_i ht
    obtain ⟨k, rfl⟩ := h ht
    refine ⟨fun j hj => ?_, fun hn => absurd rfl (hn k)⟩
    rw [Int.floor_intCast, C46_pow]
    rw [Int.cast_injective hj]
  · exact ⟨fun k hk => by rw [hk, hf], fun _ => rfl⟩

private theorem merge_self_eq {a b m : Dims} (ha : WF a) (hb : WF b) (hai : Dim.invalid ∉ labels a) (hbi : Dim.invalid ∉ labels b)
    (h : Dims.merge a b = .ok m) : Dims.merge m b = .ok m ∧ includes m b = true ∧ Dim.invalid ∉ labels m := by
  have hw := Dims.merge_WF h
  have hc := C02_merge_content a b m ha hb hai hbi h
  have hmi : Dim.invalid ∉ labels m := by
    intro hm
    simp only [labels, List.mem_map, Prod.exists] at hm hai hbi
    obtain ⟨d, x, hm, rfl⟩ := hm
    rcases (hc _ _).1 hm with h | h
    · exact hai ⟨_, _, h, rfl⟩
    · exact hbi ⟨_, _, h, rfl⟩
  have hsub : ∀ p ∈ b, p ∈ m := fun p hp => (hc p.1 p.2).2 (.inr hp)
  refine ⟨?_, (includes_iff hw.1 hb.1).2 hsub, hmi⟩
  have hcons : ∀ d x y, (d, x) ∈ m → (d, y) ∈ b → x = y := by
    intro d x y hx hy
    have := hsub _ hy
    have h1 := at?_of_mem hw.1 hx
    have h2 := at?_of_mem hw.1 this
    rw [h1] at h2
    injection h2
  rw [Dims.merge_eq m b hw hb hmi hbi hcons]
  have hnb : Dims.nb m b = [] := by
    simp only [Dims.nb, List.filter_eq_nil_iff]
    intro p hp
    have : p.1 ∈ labels m := List.mem_map_of_mem (hsub p hp)
    simp [contains_iff.2 this]
  have hl := (Dims.mergePure_perm m b m b).length_eq
  rw [hnb, List.append_nil] at hl
  exact congrArg Except.ok ((Dims.mergePure_sublist_left m b m b).eq_of_length hl.symm).symm

private theorem powUnit_spec {r : ExpRange n} {u x : MUnit n} {e : PVar n} (hv : PVar.Valid e) (hd : e.arr.dims = []) (hu : u ≠ one)
    (h : powUnit r u e = .ok x) : IsPowerUnit u e.arr x := by
  refine ⟨fun h => absurd h hu, fun _ => ⟨hd, ?_⟩⟩
  have hc : ∀ c, e.arr.val c = e.arr.val fun _ => 0 := fun c => hv.own _ _ (by simp [hd, labels])
  have hk : ∃ k : ℤ, e.arr.val (fun _ => 0) = k := by
    cases ht : e.dtype.isInt with
    | true => exact hv.int ht _
    | false =>
      simp only [powUnit, ht] at h
      split at h
      · cases h
      · rename_i hn
        have hn : conv .int64 (e.arr.val fun _ => 0) = e.arr.val fun _ => 0 := by simpa using hn
        simp only [conv, PType.isInt, if_true] at hn
        split at hn
        · exact ⟨_, hn.symm⟩
        · exact ⟨_, hn.symm⟩
  obtain ⟨k, hk⟩ := hk
  refine ⟨k, fun c => (hc c).trans hk, fun hr => ?_⟩
  simp only [powUnit] at h
  split at h
  · cases h
  · rw [hk, Int.floor_intCast] at h
    cases u with
    | none => simpa [MUnit.pow] using h.symm
    | some a =>
      simp only [MUnit.pow, toInt_id k hr] at h
      split at h
      · injection h with h
        rw [← h]; rfl
      · cases h

private theorem put_other (σ : Store n) (o e : Nat) (x : PVar n) (h : e ≠ o) : σ.put o x e = σ e := by simp [Store.put, h]

/-- What `handleUnitInPlace` does to the output if it succeeds. -/
private theorem handleUnitInPlace_ok {r : ExpRange n} {fp : ℚ → ℚ → ℚ} (hf : FpCorrect fp) {σ σ' : Store n} {o e : Nat} (ho : o ≠ e)
    (hv : PVar.Valid (σ e)) (h : handleUnitInPlace r fp σ o e = (σ', .ok ())) :
    (∀ i, i ≠ o → σ' i = σ i) ∧ (σ' o).dtype = (σ o).dtype ∧ (σ' o).arr.dims = (σ o).arr.dims ∧
    (∀ c, IsPower fp ((σ o).arr.val c) ((σ e).arr.val c) ((σ' o).arr.val c)) ∧ IsPowerUnit (σ o).unit (σ e).arr (σ' o).unit := by
  unfold handleUnitInPlace at h
  split at h
  · simp at h
  split at h
  · rename_i hone
    unfold doTransformInPlace at h
    split at h
    · simp at h
    split at h
    · simp at h
    · simp only [Prod.mk.injEq, and_true] at h
      subst h
      refine ⟨fun i hi => by simp [Store.put, hi], by simp [Store.put], by simp [Store.put], fun c => ?_, ?_, ?_⟩
      · simpa [Store.put] using powElem_isPower hf (fun ht => hv.int ht c)
      · intro; simpa [Store.put] using hone
      · intro hn; exact absurd hone hn
  split at h
  · simp at h
  rename_i hone hd
  have hd : (σ e).arr.dims = [] := by simpa using hd
  split at h
  · simp at h
  · rename_i σ1 h1
    split at h
    · simp at h
    · rename_i u hu
      simp only [Prod.mk.injEq, and_true] at h
      subst h
      unfold doTransformInPlace at h1
      split at h1
      · simp at h1
      split at h1
      · simp at h1
      · simp only [Prod.mk.injEq, and_true] at h1
        subst h1
        have hse : (σ.setUnit o one) e = σ e := put_other _ _ _ _ (Ne.symm ho)
        rw [put_other _ _ _ _ (Ne.symm ho), hse] at hu
        refine ⟨fun i hi => by simp [Store.put, Store.setUnit, hi], by simp [Store.put, Store.setUnit], by simp [Store.put, Store.setUnit], fun c => ?_, ?_⟩
        · simpa [Store.put, Store.setUnit, Ne.symm ho] using powElem_isPower hf (fun ht => hv.int ht c)
        · simpa [Store.put, Store.setUnit] using powUnit_spec hv hd hone hu

private theorem handleUnitTemp_ok {r : ExpRange n} {fp : ℚ → ℚ → ℚ} (hf : FpCorrect fp) {b e x : PVar n}
    (hv : PVar.Valid e) (h : handleUnitTemp r fp b e = .ok x) :
    x.dtype = b.dtype ∧ x.arr.dims = b.arr.dims ∧
    (∀ c, IsPower fp (b.arr.val c) (e.arr.val c) (x.arr.val c)) ∧ IsPowerUnit b.unit e.arr x.unit := by
  unfold handleUnitTemp at h
  split at h
  · cases h
  · rename_i σ hσ
    injection h with h; subst h
    have := handleUnitInPlace_ok hf (o := 0) (e := 1) (by decide) (by simpa [temp] using hv) hσ
    simpa [temp] using this.2

private theorem handleUnit_ok {r : ExpRange n} {fp : ℚ → ℚ → ℚ} (hf : FpCorrect fp) {b e x : PVar n}
    (hv : PVar.Valid e) (hm : Dims.merge b.arr.dims e.arr.dims = .ok b.arr.dims) (h : handleUnit r fp b e = .ok x) :
    x.dtype = (if b.unit = one then resultType b.dtype e.dtype else b.dtype) ∧ x.arr.dims = b.arr.dims ∧
    (∀ c, IsPower fp (b.arr.val c) (e.arr.val c) (x.arr.val c)) ∧ IsPowerUnit b.unit e.arr x.unit := by
  unfold handleUnit at h
  split at h
  · cases h
  split at h
  · rename_i hone
    unfold doTransform at h
    split at h
    · cases h
    · simp only [Arr.zip, hm, Except.ok.injEq] at h
      subst h
      refine ⟨by simp [hone], rfl, fun c => powElem_isPower hf (fun ht => hv.int ht c), fun _ => rfl, fun hn => absurd hone hn⟩
  · rename_i hone
    have := handleUnitTemp_ok hf hv h
    simpa [hone] using this

/-- **C67** (powers): `pow(base, exponent)` has the dims of both operands, every element is the power of the two elements with its
coordinates, and the unit is the power of the unit. -/
theorem C67_pow (r : ExpRange n) (fp : ℚ → ℚ → ℚ) (hf : FpCorrect fp) (b e x : PVar n) (hb : PVar.Valid b) (he : PVar.Valid e)
    (h : pow r fp b e = .ok x) :
    Dims.merge b.arr.dims e.arr.dims = .ok x.arr.dims ∧ (∀ c, IsPower fp (b.arr.val c) (e.arr.val c) (x.arr.val c)) ∧
    IsPowerUnit b.unit e.arr x.unit := by
  unfold pow at h
  split at h
  · cases h
  · rename_i dims hm
    obtain ⟨hm2, _, _⟩ := merge_self_eq hb.wf he.wf hb.valid he.valid hm
    unfold handleDtype at h
    split at h
    · obtain ⟨_, h2, h3, h4⟩ := handleUnit_ok hf he hm2 h
      exact ⟨by rw [hm, h2], h3, h4⟩
    split at h
    · split at h
      · cases h
      · obtain ⟨_, h2, h3, h4⟩ := handleUnit_ok hf he hm2 h
        exact ⟨by rw [hm, h2], h3, h4⟩
    · rename_i hbi hei
      obtain ⟨_, h2, h3, h4⟩ := handleUnitTemp_ok hf he h
      have hne : ¬ e.dtype = b.dtype := by rintro h; rw [h] at hei; simp_all
      simp only [astype, hne, if_false, conv, hei] at h2 h3 h4
      exact ⟨by rw [hm, h2], h3, h4⟩

/-- **C67** (type): the result has the common type of the operands: integers only for integer operands, and double precision if the base
or a floating-point exponent requires it. Partial: single precision with a unit other than one stays single precision, whatever the type
of the exponent (`C67_wrong_type`). -/
theorem C67_type_partial (r : ExpRange n) (fp : ℚ → ℚ → ℚ) (hf : FpCorrect fp) (b e x : PVar n) (hb : PVar.Valid b) (he : PVar.Valid e)
    (h : pow r fp b e = .ok x) (hp : ¬ (b.dtype = .float ∧ e.dtype = .double ∧ b.unit ≠ one)) :
    x.dtype = match b.dtype, e.dtype with
      | .double, _ => .double
      | .float, .double => .double
      | .float, _ => .float
      | _, .double => .double
      | _, .float => .float
      | i, _ => i := by
  unfold pow at h
  split at h
  · cases h
  · rename_i dims hm
    obtain ⟨hm2, _, _⟩ := merge_self_eq hb.wf he.wf hb.valid he.valid hm
    unfold handleDtype at h
    split at h
    · rename_i hi
      have := (handleUnit_ok hf he hm2 h).1
      rw [this]
      dsimp only
      cases hbt : b.dtype <;> cases het : e.dtype <;> simp_all [resultType, PType.isInt]
    split at h
    · split at h
      · cases h
      · have := (handleUnit_ok hf he hm2 h).1
        rw [this]
        dsimp only
        cases hbt : b.dtype <;> cases het : e.dtype <;> simp_all [resultType, PType.isInt]
    · rename_i hbi hei
      have := (handleUnitTemp_ok hf he h).1
      rw [this]
      have hne : ¬ e.dtype = b.dtype := by rintro h; rw [h] at hei; simp_all
      simp only [astype, hne, if_false]
      dsimp only at hbi
      cases hbt : b.dtype <;> cases het : e.dtype <;> simp_all [PType.isInt]

private theorem doTransformInPlace_frame (fp : ℚ → ℚ → ℚ) (σ : Store n) (o e i : Nat) (hi : i ≠ o) :
    (doTransformInPlace fp σ o e).1 i = σ i := by
  unfold doTransformInPlace
  split
  · rfl
  split
  · rfl
  · exact put_other _ _ _ _ hi

private theorem handleUnitInPlace_frame (r : ExpRange n) (fp : ℚ → ℚ → ℚ) (σ : Store n) (o e i : Nat) (hi : i ≠ o) :
    (handleUnitInPlace r fp σ o e).1 i = σ i := by
  unfold handleUnitInPlace
  split
  · rfl
  split
  · exact doTransformInPlace_frame fp σ o e i hi
  split
  · rfl
  · have hs : (σ.setUnit o one) i = σ i := put_other _ _ _ _ hi
    have hd := doTransformInPlace_frame fp (σ.setUnit o one) o e i hi
    split
    · rename_i h; rw [h] at hd; exact hd.trans hs
    · rename_i h; rw [h] at hd
      split
      · exact hd.trans hs
      · exact (put_other _ _ _ _ hi).trans (hd.trans hs)

/-- **C67** (nothing but the output): whether it succeeds or not, `pow(base, exponent, out)` leaves every other variable as it is. -/
theorem C67_only_output (r : ExpRange n) (fp : ℚ → ℚ → ℚ) (σ : Store n) (b e o i : Nat) (hi : i ≠ o) : (powOut r fp σ b e o).1 i = σ i := by
  have hc : (copyInto σ b o) i = σ i := put_other _ _ _ _ hi
  unfold powOut
  split
  · rfl
  split
  · rfl
  · unfold handleDtypeInPlace
    split
    · exact (handleUnitInPlace_frame r fp _ o e i hi).trans hc
    split
    · split
      · exact hc
      · exact (handleUnitInPlace_frame r fp _ o e i hi).trans hc
    · split <;> exact hc

private theorem astype_val {b : PVar n} {t : PType} (h : t.isInt = true → ∀ c, ∃ k : ℤ, b.arr.val c = k) :
    (astype b t).arr.val = b.arr.val := by
  unfold astype
  split
  · rfl
  · funext c
    simp only [conv]
    split
    · rename_i ht
      obtain ⟨k, hk⟩ := h ht c
      simp [hk]
    · rfl

/-- **C67** (powers into an existing variable): if `pow(base, exponent, out)` succeeds, the output has the dims of both operands, every
element is the power of the two elements with its coordinates, and its unit is the power of the unit. The base may be the output itself
(`base **= exponent`). Partial: the output must not be the exponent, and an output of integer type requires integers in both operands
(`C67_wrong_for_integers`, `C67_wrong_for_exponent`). -/
theorem C67_out_partial (r : ExpRange n) (fp : ℚ → ℚ → ℚ) (hf : FpCorrect fp) (σ σ' : Store n) (b e o : Nat) (he : PVar.Valid (σ e))
    (hoe : o ≠ e) (hi : (σ o).dtype.isInt = true → (σ e).dtype.isInt = true ∧ ∀ c, ∃ k : ℤ, (σ b).arr.val c = k)
    (h : powOut r fp σ b e o = (σ', .ok ())) :
    Dims.merge (σ b).arr.dims (σ e).arr.dims = .ok (σ' o).arr.dims ∧
    (∀ c, IsPower fp ((σ b).arr.val c) ((σ e).arr.val c) ((σ' o).arr.val c)) ∧
    IsPowerUnit (σ b).unit (σ e).arr (σ' o).unit ∧ (σ' o).dtype = (σ o).dtype := by
  unfold powOut at h
  split at h
  · simp at h
  rename_i dims hm
  split at h
  · simp at h
  rename_i hd
  have hd : dims = (σ o).arr.dims := by simpa using hd
  have hce : (copyInto σ b o) e = σ e := put_other _ _ _ _ (Ne.symm hoe)
  have hco : (copyInto σ b o) o = ⟨(σ o).dtype, (σ b).unit, (σ o).arr.dims, (σ b).arr.val⟩ := by
    simp only [copyInto, Store.put, if_true]
    rw [astype_val (fun ht => (hi ht).2)]
  have key : handleUnitInPlace r fp (copyInto σ b o) o e = (σ', .ok ()) := by
    unfold handleDtypeInPlace at h
    split at h
    · exact h
    rename_i hio
    split at h
    · split at h
      · simp at h
      · exact h
    · rename_i hie
      rw [hce] at hie
      exact absurd (hi (by simpa [hco] using hio)).1 hie
  have := handleUnitInPlace_ok hf hoe (by rw [hce]; exact he) key
  rw [hco, hce] at this
  obtain ⟨_, h1, h2, h3, h4⟩ := this
  exact ⟨by rw [hm, h2, hd], h3, h4, h1⟩

/-- **C67** (integers): `x **= y` for an integer variable `x` and a floating-point exponent never does anything: the power is computed in a
temporary variable and dropped. -/
theorem C67_wrong_for_integers (r : ExpRange n) (fp : ℚ → ℚ → ℚ) (σ : Store n) (e o : Nat) (ho : (σ o).dtype.isInt = true)
    (he : (σ e).dtype.isInt = false) : (powOut r fp σ o e o).1 = σ := by
  have hc : copyInto σ o o = σ := by
    funext i
    simp only [copyInto, Store.put, astype, if_true]
    split
    · rename_i h; subst h; rfl
    · rfl
  unfold powOut
  split
  · rfl
  split
  · rfl
  · rw [hc]
    unfold handleDtypeInPlace
    simp only [ho, he, Bool.true_eq_false, if_false, Bool.false_eq_true]
    split <;> rfl

/-- **C67** (failure): if `x **= y` fails, nothing has changed. Partial: if `x` has a unit other than one, only for exponents for which
the unit has a power and not for 32 bit integers (`C67_wrong_after_error`, `C67_wrong_for_int32`). -/
theorem C67_error_partial (r : ExpRange n) (fp : ℚ → ℚ → ℚ) (σ σ' : Store n) (e o : Nat) (x : Err)
    (hu : (σ o).unit = one ∨ (o ≠ e ∧ (σ o).dtype ≠ .int32 ∧ ∃ (k : ℤ) (u : MUnit n), (σ e).arr.val (fun _ => 0) = k ∧ MUnit.pow r (σ o).unit k = .ok u))
    (h : powOut r fp σ o e o = (σ', .error x)) : σ' = σ := by
  have hc : copyInto σ o o = σ := by
    funext i
    simp only [copyInto, Store.put, astype, if_true]
    split
    · rename_i h; subst h; rfl
    · rfl
  have key : (accepted (σ o).dtype (σ e).dtype = true ∨ (σ o).dtype = .int32) → handleUnitInPlace r fp σ o e = (σ', .error x) → σ' = σ := by
    intro ha h
    have dt : ∀ τ τ' : Store n, ∀ y, doTransformInPlace fp τ o e = (τ', .error y) → τ' = τ := by
      intro τ τ' y h
      unfold doTransformInPlace at h
      split at h
      · simp only [Prod.mk.injEq] at h; exact h.1.symm
      split at h
      · simp only [Prod.mk.injEq] at h; exact h.1.symm
      · simp at h
    unfold handleUnitInPlace at h
    split at h
    · simp only [Prod.mk.injEq] at h; exact h.1.symm
    split at h
    · exact dt _ _ _ h
    split at h
    · simp only [Prod.mk.injEq] at h; exact h.1.symm
    · rename_i hone hd
      rcases hu with hu | ⟨hoe, h32, k, u, hk, hu⟩
      · exact absurd hu hone
      have hd : (σ e).arr.dims = [] := by simpa using hd
      have hse : (σ.setUnit o one) e = σ e := put_other _ _ _ _ (Ne.symm hoe)
      have hso : ((σ.setUnit o one) o).dtype = (σ o).dtype := by simp [Store.setUnit, Store.put]
      have ha := ha.resolve_right h32
      split at h
      · rename_i σ1 y h1
        unfold doTransformInPlace at h1
        simp [hse, hso, ha, hd, includes] at h1
      · rename_i σ1 h1
        have hf := doTransformInPlace_frame fp (σ.setUnit o one) o e e (Ne.symm hoe)
        rw [h1] at hf
        have hf : σ1 e = σ e := hf.trans hse
        rw [hf] at h
        have hp : powUnit r (σ o).unit (σ e) = .ok u := by
          unfold powUnit
          rw [if_neg]
          · rw [hk, Int.floor_intCast]; exact hu
          · rintro ⟨_, hn⟩
            rw [hk] at hn
            simp [conv, PType.isInt] at hn
        rw [hp] at h
        simp at h
  unfold powOut at h
  split at h
  · simp only [Prod.mk.injEq] at h; exact h.1.symm
  split at h
  · simp only [Prod.mk.injEq] at h; exact h.1.symm
  · rw [hc] at h
    unfold handleDtypeInPlace at h
    split at h
    · rename_i hi
      exact key (.inl (by revert hi; cases (σ o).dtype <;> simp [PType.isInt, accepted])) h
    split at h
    · rename_i hei
      split at h
      · simp only [Prod.mk.injEq] at h; exact h.1.symm
      · refine key ?_ h
        revert hei; cases (σ o).dtype <;> cases (σ e).dtype <;> simp [PType.isInt, accepted]
    · split at h
      · simp only [Prod.mk.injEq] at h; exact h.1.symm
      · simp at h

private theorem hasNegative_iff {e : PVar n} (he : PVar.Valid e) :
    hasNegative e = true ↔ ∃ c, InDims e.arr.dims c ∧ e.arr.val c < 0 := by
  simp only [hasNegative, List.any_eq_true, List.mem_range, decide_eq_true_eq]
  constructor
  · rintro ⟨k, hk, h⟩
    exact ⟨_, coordsOf_inDims he.wf (by omega) (by omega), h⟩
  · rintro ⟨c, hc, h⟩
    have hb := position_bounds hc
    refine ⟨(position e.arr.dims c).toNat, by omega, ?_⟩
    rw [Int.toNat_of_nonneg hb.1, he.own _ c (coordsOf_position he.wf.1 hc)]
    exact h

private theorem powUnit_ok_iff {r : ExpRange n} {u : MUnit n} {e : PVar n} (hv : PVar.Valid e) :
    (∃ x, powUnit r u e = .ok x) ↔ ∃ (k : ℤ) (x : MUnit n), e.arr.val (fun _ => 0) = k ∧ MUnit.pow r u k = .ok x := by
  constructor
  · rintro ⟨x, h⟩
    have hk : ∃ k : ℤ, e.arr.val (fun _ => 0) = k := by
      cases ht : e.dtype.isInt with
      | true => exact hv.int ht _
      | false =>
        simp only [powUnit, ht] at h
        split at h
        · cases h
        · rename_i hn
          have hn : conv .int64 (e.arr.val fun _ => 0) = e.arr.val fun _ => 0 := by simpa using hn
          simp only [conv, PType.isInt, if_true] at hn
          split at hn
          · exact ⟨_, hn.symm⟩
          · exact ⟨_, hn.symm⟩
    obtain ⟨k, hk⟩ := hk
    refine ⟨k, x, hk, ?_⟩
    unfold powUnit at h
    split at h
    · cases h
    · rwa [hk, Int.floor_intCast] at h
  · rintro ⟨k, x, hk, h⟩
    refine ⟨x, ?_⟩
    unfold powUnit
    rw [if_neg]
    · rw [hk, Int.floor_intCast]; exact h
    · rintro ⟨_, hn⟩
      rw [hk] at hn
      simp [conv, PType.isInt] at hn

private theorem handleUnitTemp_iff {r : ExpRange n} {fp : ℚ → ℚ → ℚ} {b e : PVar n} (he : PVar.Valid e) (ha : includes b.arr.dims e.arr.dims = true) :
    (∃ x, handleUnitTemp r fp b e = .ok x) ↔ e.unit = one ∧ accepted b.dtype e.dtype = true ∧
      (b.unit = one ∨ (e.arr.dims = [] ∧ ∃ (k : ℤ) (u : MUnit n), e.arr.val (fun _ => 0) = k ∧ MUnit.pow r b.unit k = .ok u)) := by
  have t0 : temp b e 0 = b := rfl
  have t1 : temp b e 1 = e := rfl
  rw [← powUnit_ok_iff he]
  by_cases hu : e.unit = one
  · by_cases hb : b.unit = one
    · cases hacc : accepted b.dtype e.dtype <;>
        simp [handleUnitTemp, handleUnitInPlace, t0, t1, hu, hb, doTransformInPlace, hacc, ha]
    · by_cases hd : e.arr.dims = []
      · have s1 : ((temp b e).setUnit 0 one) 1 = e := rfl
        have s0 : ((temp b e).setUnit 0 one) 0 = { b with unit := one } := rfl
        have hemp : ∀ s, includes s ([] : Dims) = true := fun s => rfl
        cases hacc : accepted b.dtype e.dtype
        · simp [handleUnitTemp, handleUnitInPlace, t0, t1, hu, hb, hd, doTransformInPlace, s0, s1, hacc]
        · simp only [handleUnitTemp, handleUnitInPlace, t0, t1, hu, hb, hd, doTransformInPlace, s0, s1, hacc, ne_eq, not_true_eq_false, if_false,
            Bool.true_eq_false, hemp, true_and, false_or]
          rw [put_other _ _ _ _ (by decide), s1]
          cases hp : powUnit r b.unit e <;> simp
      · simp [handleUnitTemp, handleUnitInPlace, t0, t1, hu, hb, hd]
  · simp [handleUnitTemp, handleUnitInPlace, t0, t1, hu]

private theorem handleUnit_iff {r : ExpRange n} {fp : ℚ → ℚ → ℚ} {b e : PVar n} (he : PVar.Valid e) (ha : includes b.arr.dims e.arr.dims = true)
    (hm : Dims.merge b.arr.dims e.arr.dims = .ok b.arr.dims) :
    (∃ x, handleUnit r fp b e = .ok x) ↔ e.unit = one ∧ accepted b.dtype e.dtype = true ∧
      (b.unit = one ∨ (e.arr.dims = [] ∧ ∃ (k : ℤ) (u : MUnit n), e.arr.val (fun _ => 0) = k ∧ MUnit.pow r b.unit k = .ok u)) := by
  by_cases hu : e.unit = one
  · by_cases hb : b.unit = one
    · cases hacc : accepted b.dtype e.dtype <;> simp [handleUnit, hu, hb, doTransform, hacc, Arr.zip, hm]
    · rw [← handleUnitTemp_iff (fp := fp) he ha]
      simp [handleUnit, hu, hb]
  · simp [handleUnit, hu]

/-- **C67** (success): `pow(base, exponent)` succeeds exactly if the exponent is dimensionless, the lengths of shared dims agree, the base is
dimensionless or the exponent is a scalar integer for which the unit has a power, and if, for an integer base and integer exponents, the
base has 64 bits and no exponent is negative. -/
theorem C67_succeeds (r : ExpRange n) (fp : ℚ → ℚ → ℚ) (b e : PVar n) (hb : PVar.Valid b) (he : PVar.Valid e) :
    (∃ x, pow r fp b e = .ok x) ↔ e.unit = one ∧ (∀ d x y, (d, x) ∈ b.arr.dims → (d, y) ∈ e.arr.dims → x = y) ∧
      (b.unit = one ∨ (e.arr.dims = [] ∧ ∃ (k : ℤ) (u : MUnit n), e.arr.val (fun _ => 0) = k ∧ MUnit.pow r b.unit k = .ok u)) ∧
      (b.dtype.isInt = true → e.dtype.isInt = true → b.dtype = .int64 ∧ ∀ c, InDims e.arr.dims c → 0 ≤ e.arr.val c) := by
  rw [← C02_merge_succeeds_iff b.arr.dims e.arr.dims hb.wf he.wf hb.valid he.valid]
  cases hm : Dims.merge b.arr.dims e.arr.dims with
  | error y => simp [pow, hm]
  | ok dims =>
    obtain ⟨hm2, hinc, _⟩ := merge_self_eq hb.wf he.wf hb.valid he.valid hm
    have e1 : (∃ m, (Except.ok dims : Except Err Dims) = .ok m) ↔ True := by simp
    rw [e1, true_and]
    simp only [pow, hm, handleDtype]
    cases hbi : b.dtype.isInt with
    | false =>
      simp only [if_true, Bool.false_eq_true, false_implies, and_true]
      rw [handleUnit_iff he hinc hm2]
      have : accepted b.dtype e.dtype = true := by
        revert hbi; cases b.dtype <;> simp [PType.isInt, accepted]
      simp [this]
    | true =>
      cases hei : e.dtype.isInt with
      | true =>
        simp only [Bool.true_eq_false, if_false, if_true, true_implies]
        cases hneg : hasNegative e with
        | true =>
          obtain ⟨c, hc, hlt⟩ := (hasNegative_iff he).1 hneg
          simp only [if_true]
          constructor
          · rintro ⟨x, hx⟩; cases hx
          · rintro ⟨_, _, _, h⟩; exact absurd (h c hc) (not_le.2 hlt)
        | false =>
          have hnn : ∀ c, InDims e.arr.dims c → 0 ≤ e.arr.val c := by
            intro c hc
            by_contra hlt
            have := (hasNegative_iff he).2 ⟨c, hc, not_le.1 hlt⟩
            rw [hneg] at this; cases this
          simp only [Bool.false_eq_true, if_false]
          rw [handleUnit_iff he hinc hm2]
          have : accepted b.dtype e.dtype = true ↔ b.dtype = .int64 := by
            revert hbi hei; cases b.dtype <;> cases e.dtype <;> simp [PType.isInt, accepted]
          dsimp only
          rw [this]
          constructor
          · rintro ⟨h1, h2, h3⟩; exact ⟨h1, h3, h2, hnn⟩
          · rintro ⟨h1, h3, h2, _⟩; exact ⟨h1, h2, h3⟩
      | false =>
        simp only [Bool.true_eq_false, if_false, Bool.false_eq_true, false_implies, implies_true, and_true]
        have hne : ¬ e.dtype = b.dtype := by rintro h; rw [h, hbi] at hei; cases hei
        rw [handleUnitTemp_iff he (by simpa [astype, hne] using hinc)]
        have : accepted e.dtype e.dtype = true := by
          revert hei; cases e.dtype <;> simp [PType.isInt, accepted]
        simp [astype, hne, this]

/- Concrete cases. One base unit (the metre), exponents between -8 and 7. -/
private def rr : ExpRange 1 := fun _ => (-8, 7)
private def metre : MUnit 1 := some ⟨1, fun _ => 1⟩
/- A stand-in for `std::pow`: exact for integer exponents, the base otherwise. -/
private def fpx (b e : ℚ) : ℚ := if e = ⌊e⌋ then b ^ ⌊e⌋ else b
private theorem fpx_correct : FpCorrect fpx := fun b k => by simp [fpx]
private def scalar (t : PType) (u : MUnit 1) (x : ℚ) : PVar 1 := ⟨t, u, [], fun _ => x⟩
private def vec (t : PType) (u : MUnit 1) (d : Dim) (k : Int) (f : Int → ℚ) : PVar 1 := ⟨t, u, [(d, k)], fun c => f (c d)⟩
private theorem scalar_valid (t : PType) (u : MUnit 1) (x : ℚ) (h : t.isInt = true → ∃ k : ℤ, x = k) : PVar.Valid (scalar t u x) :=
  ⟨by simp [scalar, WF, labels], by simp [scalar, labels], fun _ _ _ => rfl, fun ht _ => h ht⟩
private theorem vec_valid (t : PType) (u : MUnit 1) (d : Dim) (k : Int) (hk : 0 ≤ k) (hd : d ≠ Dim.invalid) (f : Int → ℚ)
    (h : t.isInt = true → ∀ i, ∃ k : ℤ, f i = k) : PVar.Valid (vec t u d k f) :=
  ⟨by simp [vec, WF, labels, hk], by simpa [vec, labels] using hd.symm, fun c c' h => by simp only [vec]; rw [h d (by simp [vec, labels])],
    fun ht c => h ht (c d)⟩

/-- Cubes of a vector of lengths. -/
example : ∃ x, pow rr fpx (vec .double metre 3 2 (fun i => i + 1)) (scalar .int64 one 3) = .ok x ∧ x.arr.dims = [(3, 2)] ∧
    x.arr.val (fun _ => 1) = 8 ∧ x.unit = some ⟨1, fun _ => 3⟩ := by
  have hb := vec_valid .double metre 3 2 (by decide) (by decide) (fun i => (i : ℚ) + 1) (by simp [PType.isInt])
  have he := scalar_valid .int64 one 3 (fun _ => ⟨3, by norm_num⟩)
  have hs := (C67_succeeds rr fpx _ _ hb he).2 ⟨rfl, by simp [vec, scalar], .inr ⟨rfl, 3, _, by simp [scalar], rfl⟩, by simp [vec, PType.isInt]⟩
  obtain ⟨x, hx⟩ := hs
  have := C67_pow rr fpx fpx_correct _ _ x hb he hx
  obtain ⟨h1, h2, _, h3⟩ := this
  refine ⟨x, hx, ?_, ?_, ?_⟩
  · have h1 : (Except.ok [(3, 2)] : Except Err Dims) = .ok x.arr.dims := h1
    injection h1 with h1; exact h1.symm
  · have := (h2 (fun _ => 1)).1 3 (by simp [scalar])
    rw [this]; simp [vec]; norm_num
  · obtain ⟨_, k, hk, hu⟩ := h3 (by decide)
    have hk : (3 : ℚ) = k := hk fun _ => 0
    have hk : k = 3 := by exact_mod_cast hk.symm
    subst hk
    rw [hu (by decide)]
    simp [vec, metre]

example := C67_type_partial rr fpx fpx_correct (vec .float one 3 2 (fun i => i + 1)) (scalar .double one 2) _
  (vec_valid .float one 3 2 (by decide) (by decide) (fun i => (i : ℚ) + 1) (by simp [PType.isInt])) (scalar_valid .double one 2 (by simp [PType.isInt]))
  rfl (by simp [vec])

/-- `x **= y` for a vector of integers and a scalar integer. -/
example := C67_out_partial rr fpx fpx_correct (fun i => if i = 0 then vec .int64 one 3 2 (fun i => i + 1) else scalar .int64 one 3) _ 0 1 0
  (scalar_valid .int64 one 3 (fun _ => ⟨3, by norm_num⟩)) (by decide) (fun _ => ⟨rfl, fun c => ⟨c 3 + 1, by simp [vec]⟩⟩) rfl

/-- `x **= y` for lengths `x`, and an exponent with a unit. -/
example := C67_error_partial rr fpx (fun i => if i = 0 then vec .double metre 3 2 (fun i => i + 1) else scalar .int64 metre 3) _ 1 0 .unit
  (.inr ⟨by decide, by simp [vec], 3, _, by simp [scalar], rfl⟩) rfl

example := C67_only_output rr fpx (fun i => if i = 0 then scalar .double metre 9 else scalar .double one (1 / 2)) 0 1 0 1 (by decide)

/-- **C67** violated: `x = 4; x **= 2.0` for an integer `x` succeeds and leaves 4. -/
theorem C67_wrong_integer_example :
    let σ : Store 1 := fun i => if i = 0 then scalar .int64 one 4 else scalar .double one 2
    (powOut rr fpx σ 0 1 0).2.isOk = true ∧ ((powOut rr fpx σ 0 1 0).1 0).arr.val (fun _ => 0) = 4 := by
  decide +kernel

example := C67_wrong_for_integers rr fpx (fun i => if i = 0 then scalar .int64 one 4 else scalar .double one 2) 1 0 rfl rfl

/-- **C67** violated: with the exponent as output, the base is copied to it before the power is computed: 2 to the power of 3 gives 4. -/
theorem C67_wrong_for_exponent :
    let σ : Store 1 := fun i => if i = 0 then scalar .double one 2 else scalar .double one 3
    (powOut rr fpx σ 0 1 1).2.isOk = true ∧ ((powOut rr fpx σ 0 1 1).1 1).arr.val (fun _ => 0) = 4 := by
  decide +kernel

/-- **C67** violated: `x **= 0.5` for a length fails, but the element has been replaced and the unit is lost (here with a `std::pow` that gives
3 for the square root of 9). -/
theorem C67_wrong_after_error :
    let σ : Store 1 := fun i => if i = 0 then scalar .double metre 9 else scalar .double one (1 / 2)
    let res := powOut rr (fun _ _ => 3) σ 0 1 0
    res.2.isOk = false ∧ (res.1 0).arr.val (fun _ => 0) = 3 ∧ (res.1 0).unit = one := by
  decide +kernel

/-- **C67** violated: `x **= 2` for a length given as 32 bit integer fails, and the unit is lost. -/
theorem C67_wrong_for_int32 :
    let σ : Store 1 := fun i => if i = 0 then scalar .int32 metre 9 else scalar .int64 one 2
    let res := powOut rr fpx σ 0 1 0
    res.2.isOk = false ∧ (res.1 0).unit = one := by
  decide +kernel

/-- **C67** violated: the type of the result depends on the unit. -/
theorem C67_wrong_type :
    (pow rr fpx (scalar .float one 2) (scalar .double one 2)).map (·.dtype) = .ok .double ∧
    (pow rr fpx (scalar .float metre 2) (scalar .double one 2)).map (·.dtype) = .ok .float := by
  decide +kernel

end Scipp.Props
