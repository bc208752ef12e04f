import Verif.Model.PySet
import Verif.Props.Heap
/-!
C91: setting values and variances from Python.
-/
namespace Scipp.Props
open Scipp Sizes PySet
variable {U V : Type}

theorem copyFrom_size (v : View) (x : Int → V) : ∀ (n : Nat) (b : Buffer V), (copyFrom v x b n).size = b.size := by
  intro n
  induction n with
  | zero => intro b; rfl
  | succ n ih => intro b; simp only [copyFrom, List.range_succ, List.foldl_append, List.foldl_cons, List.foldl_nil] at ih ⊢
                 simpa [Buffer.set] using ih b

theorem copyFrom_succ (v : View) (x : Int → V) (n : Nat) (b : Buffer V) :
    copyFrom v x b (n + 1) = (copyFrom v x b n).set (v.addr (coordsOf v.dims n)) (x n) := by
  simp only [copyFrom, List.range_succ, List.foldl_append, List.foldl_cons, List.foldl_nil]

theorem copyFrom_at {v : View} (hw : v.WF) (hd : v.Distinct) (x : Int → V) (b : Buffer V) : ∀ (n : Nat), (n : Int) ≤ Dims.volume v.dims →
    (∀ c, InDims v.dims c → position v.dims c < n → (copyFrom v x b n).at_ (v.addr c) = x (position v.dims c)) ∧
    ∀ a, (∀ c, InDims v.dims c → v.addr c ≠ a) → (copyFrom v x b n).at_ a = b.at_ a := by
  intro n
  induction n with
  | zero => intro _; exact ⟨fun c hc h => absurd (position_bounds hc).1 (by simp at h; omega), fun a _ => rfl⟩
  | succ n ih =>
    intro hn
    obtain ⟨h1, h2⟩ := ih (by push_cast at hn; omega)
    have hin : InDims v.dims (coordsOf v.dims n) := coordsOf_inDims hw.1 (by omega) (by push_cast at hn; omega)
    have hpos := position_coordsOf hw.1 (k := (n : Int)) (by omega) (by push_cast at hn; omega)
    rw [copyFrom_succ]
    refine ⟨fun c hc hlt => ?_, fun a ha => ?_⟩
    · by_cases he : v.addr c = v.addr (coordsOf v.dims n)
      · have hp : position v.dims c = n := by rw [← hpos]; exact position_congr (hd _ _ hc hin he)
        simp [Buffer.set, he, hp]
      · have hne : position v.dims c ≠ n := by
          intro h
          apply he
          have hd' : ∀ d ∈ labels v.dims, c d = coordsOf v.dims n d := by
            intro d hd'
            rw [← h]; exact (coordsOf_position hw.1.1 hc d hd').symm
          simp only [View.addr]; rw [addrAux_congr hd']
        simp only [Buffer.set, Function.update_of_ne he]
        exact h1 c hc (by push_cast at hlt; omega)
    · simp only [Buffer.set, Function.update_of_ne (Ne.symm (ha _ hin))]
      exact h2 a ha

/-- Everything at once about `set`. -/
theorem setPart_ok_iff (o : Obj U V) (v : View) (p : Part) (x : Except Err (Given V)) :
    (setPart o v p x).2 = .ok () ↔
      v.readonly = false ∧ (∃ g, x = .ok g ∧ g.shape = shape v.dims) ∧ (p = .variances → o.variances.isSome) := by
  cases x with
  | error e =>
    cases hr : v.readonly <;> cases p <;> cases hv : o.variances <;> simp [setPart, PySet.buffer, expectWritable, hr, hv]
  | ok g =>
    by_cases hs : g.shape = shape v.dims
    · cases hr : v.readonly <;> cases p <;> cases hv : o.variances <;>
        simp [setPart, PySet.buffer, expectWritable, hr, hv, copyArray, hs]
    · have hs' : ¬ shape v.dims = g.shape := fun h => hs h.symm
      cases hr : v.readonly <;> cases p <;> cases hv : o.variances <;>
        simp [setPart, PySet.buffer, expectWritable, hr, hv, copyArray, hs, hs']

theorem setPart_error (o : Obj U V) (v : View) (p : Part) (x : Except Err (Given V)) (h : (setPart o v p x).2 ≠ .ok ()) :
    (setPart o v p x).1 = o := by
  revert h
  simp only [setPart]
  cases PySet.buffer o v p with
  | error e => intro _; rfl
  | ok b =>
    cases x with
    | error e => intro _; rfl
    | ok g =>
      simp only
      cases copyArray v g b with
      | error e => intro _; rfl
      | ok b' => intro h; exact absurd rfl h

/-- **C91** (values). `var.values = x` succeeds if and only if the variable is writable, the object given can be converted, and has the shape
of the variable. -/
theorem C91_values_when (o : Obj U V) (v : View) (x : Except Err (Given V)) :
    (setValues o v x).2 = .ok () ↔ v.readonly = false ∧ ∃ g, x = .ok g ∧ g.shape = shape v.dims := by
  simp [setValues, setPart_ok_iff]

/-- **C91** (values). Then every element has the value given for it, all elements of the buffer that are not part of the variable, the
variances and the unit stay. -/
theorem C91_values (o o' : Obj U V) (v : View) (g : Given V) (hv : ViewOf o.values.size v) (h : setValues o v (.ok g) = (o', .ok ())) :
    (∀ c, InDims v.dims c → getValues o' v c = g.elem (position v.dims c)) ∧
    (∀ a, (∀ c, InDims v.dims c → v.addr c ≠ a) → o'.values.at_ a = o.values.at_ a) ∧
    o'.values.size = o.values.size ∧ o'.variances = o.variances ∧ o'.unit = o.unit := by
  have hr := ((C91_values_when o v (.ok g)).1 (by rw [h])).1
  obtain ⟨hw, _, hd⟩ := viewOf_good hv
  have hvol : ((Dims.volume v.dims).toNat : Int) = Dims.volume v.dims := Int.toNat_of_nonneg (volume_nonneg hw.1.2)
  obtain ⟨h1, h2⟩ := copyFrom_at hw (hd hr) g.elem o.values (Dims.volume v.dims).toNat (by omega)
  obtain ⟨_, g', hg, hs⟩ := (C91_values_when o v (.ok g)).1 (by rw [h])
  cases hg
  simp only [setValues, setPart, PySet.buffer, expectWritable, hr, copyArray, hs, Bool.false_eq_true, if_false, ne_eq, not_true,
    store, Prod.mk.injEq, and_true] at h
  subst h
  refine ⟨fun c hc => h1 c hc ?_, fun a ha => h2 a ha, copyFrom_size _ _ _ _, rfl, rfl⟩
  rw [hvol]; exact (position_bounds hc).2

/-- **C91** (variances). `var.variances = x` succeeds if and only if the variable is writable, the object given can be converted and has the
shape of the variable, and there are variances already, or the elements can have some and the variable is not a slice. -/
theorem C91_variances_when [DecidableEq U] (canVar : Bool) (o : Obj U V) (v : View) (x : Except Err (Given V)) :
    (PySet.setVariances canVar o v (some x)).2 = .ok () ↔
      v.readonly = false ∧ (∃ g, x = .ok g ∧ g.shape = shape v.dims) ∧
      (o.variances.isSome ∨ canVar = true ∧ isSlice v o.values.size = false) := by
  cases hb : o.variances with
  | some b =>
    simp [PySet.setVariances, withVariances, hb, setPart_ok_iff]
  | none =>
    cases hr : v.readonly <;> cases hs : isSlice v o.values.size <;> cases canVar <;>
      simp [PySet.setVariances, withVariances, hb, initVariances, Obj.setVariances, expectWritable, hr, hs, Dims.eqDims, setPart_ok_iff]

/-- The variances that `var.variances = x` writes to: those there are, or a copy of the values. -/
def startVariances (o : Obj U V) : Buffer V := o.variances.getD o.values

theorem setVariances_eq [DecidableEq U] (canVar : Bool) (o : Obj U V) (v : View) (x : Except Err (Given V)) (hr : v.readonly = false)
    (h : o.variances.isSome ∨ canVar = true ∧ isSlice v o.values.size = false) :
    PySet.setVariances canVar o v (some x) = setPart { o with variances := some (startVariances o) } v .variances x := by
  cases hb : o.variances with
  | some b => simp only [PySet.setVariances, withVariances, hb, Option.isSome_some, if_true, startVariances, Option.getD_some]
              rw [← hb]
  | none =>
    obtain ⟨hc, hs⟩ := h.resolve_left (by simp [hb])
    simp [PySet.setVariances, withVariances, hb, initVariances, Obj.setVariances, expectWritable, hr, hs, Dims.eqDims, hc, startVariances]

/-- **C91** (variances). Then every element has the variance given for it; values and unit stay, and so do the variances of
elements of the buffer that are not part of the variable; there are such elements only if there were variances before. -/
theorem C91_variances [DecidableEq U] (canVar : Bool) (o o' : Obj U V) (v : View) (g : Given V) (hv : ViewOf o.values.size v)
    (h : PySet.setVariances canVar o v (some (.ok g)) = (o', .ok ())) :
    (∃ f, getVariances o' v = some f ∧ ∀ c, InDims v.dims c → f c = g.elem (position v.dims c)) ∧
    (∀ b, o.variances = some b → ∃ b', o'.variances = some b' ∧ b'.size = b.size ∧
      ∀ a, (∀ c, InDims v.dims c → v.addr c ≠ a) → b'.at_ a = b.at_ a) ∧
    (o.variances = none → ∃ b', o'.variances = some b' ∧ b'.size = o.values.size ∧
      ∀ a, 0 ≤ a → a < o.values.size → ∃ c, InDims v.dims c ∧ v.addr c = a) ∧
    o'.values = o.values ∧ o'.unit = o.unit := by
  obtain ⟨hr, ⟨g', hg, hs⟩, hc⟩ := (C91_variances_when canVar o v (.ok g)).1 (by rw [h])
  cases hg
  obtain ⟨hw, hin, hd⟩ := viewOf_good hv
  have hvol : ((Dims.volume v.dims).toNat : Int) = Dims.volume v.dims := Int.toNat_of_nonneg (volume_nonneg hw.1.2)
  obtain ⟨h1, h2⟩ := copyFrom_at hw (hd hr) g.elem (startVariances o) (Dims.volume v.dims).toNat (by omega)
  rw [setVariances_eq canVar o v _ hr hc] at h
  simp only [setPart, PySet.buffer, expectWritable, hr, copyArray, hs, Bool.false_eq_true, if_false, ne_eq, not_true,
    store, Prod.mk.injEq, and_true] at h
  subst h
  refine ⟨⟨_, rfl, fun c hc => h1 c hc (by rw [hvol]; exact (position_bounds hc).2)⟩, fun b hb => ⟨_, rfl, ?_, fun a ha => ?_⟩,
    fun hb => ⟨_, rfl, ?_, fun a h0 hlt => ?_⟩, rfl, rfl⟩
  · rw [copyFrom_size]; simp [startVariances, hb]
  · rw [h2 a ha]; simp [startVariances, hb]
  · rw [copyFrom_size]; simp [startVariances, hb]
  · have hsl := (hc.resolve_left (by simp [hb])).2
    simp only [isSlice, Bool.or_eq_false_iff, bne_eq_false_iff_eq] at hsl
    exact covers_of_volume hw hin (hd hr) hsl.2 a h0 hlt

/-- **C91** (removing). `var.variances = None` succeeds if and only if the variable is writable and not a slice; then no variable of the
same buffer has variances, and values and unit stay. If it fails, nothing has changed. -/
theorem C91_remove [DecidableEq U] (canVar : Bool) (o o' : Obj U V) (v : View) (r : Except Err Unit)
    (h : PySet.setVariances canVar o v none = (o', r)) :
    (r = .ok () ↔ v.readonly = false ∧ isSlice v o.values.size = false) ∧
    (r = .ok () → (∀ w, getVariances o' w = none) ∧ o'.values = o.values ∧ o'.unit = o.unit) ∧
    (r ≠ .ok () → o' = o) := by
  cases hr : v.readonly <;> cases hs : isSlice v o.values.size <;>
    (simp [PySet.setVariances, removeVariances, Obj.setVariances, expectWritable, hr, hs] at h
     obtain ⟨rfl, rfl⟩ := h
     simp [getVariances])

/-- **C91** (atomic). A setter that fails leaves everything as it was, if the variable has variances already, or if it is values that are
set. What is missing: see `C91_wrong_half_done`. In any case values and unit stay. -/
theorem C91_atomic_partial [DecidableEq U] (canVar : Bool) (o : Obj U V) (v : View) (x : Except Err (Given V)) :
    ((setValues o v x).2 ≠ .ok () → (setValues o v x).1 = o) ∧
    (o.variances.isSome → (PySet.setVariances canVar o v (some x)).2 ≠ .ok () → (PySet.setVariances canVar o v (some x)).1 = o) ∧
    ((PySet.setVariances canVar o v (some x)).2 ≠ .ok () → (PySet.setVariances canVar o v (some x)).1.values = o.values ∧
      (PySet.setVariances canVar o v (some x)).1.unit = o.unit) := by
  refine ⟨setPart_error o v .values x, fun hs h => ?_, fun h => ?_⟩
  · simp only [PySet.setVariances, withVariances, hs, if_true] at h ⊢
    exact setPart_error _ _ _ _ h
  · by_cases hc : v.readonly = false ∧ (o.variances.isSome ∨ canVar = true ∧ isSlice v o.values.size = false)
    · rw [setVariances_eq canVar o v x hc.1 hc.2] at h ⊢
      rw [setPart_error _ _ _ _ h]
      exact ⟨rfl, rfl⟩
    · cases hb : o.variances with
      | some b =>
        simp only [PySet.setVariances, withVariances, hb, Option.isSome_some, if_true] at h ⊢
        rw [setPart_error _ _ _ _ h]
        exact ⟨rfl, rfl⟩
      | none =>
        cases hr : v.readonly <;> cases hs : isSlice v o.values.size <;> cases canVar <;>
          simp_all [PySet.setVariances, withVariances, initVariances, Obj.setVariances, expectWritable, Dims.eqDims]

/-- **C91** (violated). If a variable has no variances, setting variances that cannot be converted or have the wrong shape fails, and
afterwards the variable has variances, which are equal to its values. -/
theorem C91_wrong_half_done [DecidableEq U] (o : Obj U V) (v : View) (x : Except Err (Given V)) (hr : v.readonly = false)
    (hs : isSlice v o.values.size = false) (hn : o.variances = none) (hx : ∀ g, x = .ok g → g.shape ≠ shape v.dims) :
    (PySet.setVariances true o v (some x)).2 ≠ .ok () ∧
    (PySet.setVariances true o v (some x)).1 = { o with variances := some o.values } ∧
    getVariances (PySet.setVariances true o v (some x)).1 v = some (getValues o v) := by
  have hne : (PySet.setVariances true o v (some x)).2 ≠ .ok () := by
    rw [ne_eq, C91_variances_when]
    rintro ⟨_, ⟨g, hg, h⟩, _⟩
    exact hx g hg h
  refine ⟨hne, ?_⟩
  rw [setVariances_eq true o v x hr (.inr ⟨rfl, hs⟩)] at hne ⊢
  rw [setPart_error _ _ _ _ hne]
  simp only [startVariances, hn, Option.getD_none]
  exact ⟨trivial, rfl⟩

/-- **C91** (scalars). `value` and `variance` are refused for anything but scalars, and for scalars they are the same as `values` and
`variances` with an array of no dimensions. -/
theorem C91_scalar [DecidableEq U] (canVar : Bool) (o : Obj U V) (v : View) (x : Except Err V) :
    (v.dims ≠ [] → setValue o v x = (o, .error .dimension) ∧ PySet.setVariance canVar o v (some x) = (o, .error .dimension) ∧
      PySet.setVariance canVar o v none = (o, .error .dimension)) ∧
    (v.dims = [] → setValue o v x = setValues o v (x.map fun x => ⟨[], fun _ => x⟩) ∧
      PySet.setVariance canVar o v (some x) = PySet.setVariances canVar o v (some (x.map fun x => ⟨[], fun _ => x⟩)) ∧
      PySet.setVariance canVar o v none = PySet.setVariances canVar o v none) := by
  refine ⟨fun h => ?_, fun h => ?_⟩
  · have : v.dims.isEmpty = false := by simpa using h
    simp [setValue, PySet.setVariance, expectScalar, this]
  · have key : ∀ (o : Obj U V) (p : Part), setScalarPart o v p x = setPart o v p (x.map fun x => ⟨[], fun _ => x⟩) := by
      intro o p
      simp only [setScalarPart, setPart]
      cases PySet.buffer o v p with
      | error e => rfl
      | ok b =>
        cases x with
        | error e => rfl
        | ok x =>
          simp [Except.map, copyArray, h, shape, copyFrom, Dims.volume, View.addr, addrAux]
    simp only [setValue, PySet.setVariance, expectScalar, h, List.isEmpty_nil, if_true, setValues, PySet.setVariances, key, and_self]

def psObj : Obj Nat Int := ⟨7, ⟨6, fun a => 10 + a⟩, none⟩
def psView : View := ⟨[(4, 2), (5, 3)], [1, 2], 0, false⟩

/-- A transposed variable, set to an array of its shape. -/
example : ((PySet.setVariances true psObj psView (some (.ok ⟨[2, 3], fun k => k * k⟩))).1.variances.map fun b =>
    (List.range 6).map fun k => b.at_ k) = some [0, 9, 1, 16, 4, 25] := by decide
example : ((List.range 6).map fun k => (setValues psObj psView (.ok ⟨[2, 3], fun k => k * k⟩)).1.values.at_ k) = [0, 9, 1, 16, 4, 25] := by
  decide
example : ViewOf psObj.values.size psView :=
  .transpose (v := View.fresh [(5, 3), (4, 2)]) (o := [4, 5]) (.fresh (by simp [Sizes.WF, labels]) (by decide)) (by decide)
/-- Wrong shape. -/
example : ((PySet.setVariances true psObj psView (some (.ok ⟨[3, 2], fun k => k⟩))).1.variances.map fun b =>
    (List.range 6).map fun k => b.at_ k) = some [10, 11, 12, 13, 14, 15] := by decide
/-- A slice. -/
example : (PySet.setVariances true psObj ⟨[(4, 2)], [1], 2, false⟩ (some (.ok ⟨[2], fun k => k⟩))).2 = .error .variances := by decide
/-- A scalar. -/
example : ((PySet.setVariance true (⟨0, ⟨1, fun _ => 3⟩, none⟩ : Obj Nat Int) (View.fresh []) (some (.ok 5))).1.variances.map
    fun b => b.at_ 0) = some 5 := by decide

end Scipp.Props
