import Verif.Lemmas.Heap
/-!
# C33, C52, C55: protection, sharing and independence of variables

Programs are arbitrary sequences of `HeapOp`s, started in any state reachable by such
sequences (`Heap.Ok` is the invariant; it holds initially and is preserved). Operations that throw are
part of the sequences; the program continues in the state before.
-/
namespace Scipp.Props
open Scipp Sizes
variable {U V : Type}

/-- The object a variable refers to. -/
def objOf (s : Heap U V) (i : Nat) : Option Nat := (s.vars[i]?).map Handle.obj

/-- The variable through which an operation modifies data. -/
def HeapOp.target : HeapOp U V → Option Nat
  | .write i _ => some i
  | .setUnit i _ => some i
  | .setVariances i _ => some i
  | _ => none

/-- The empty program state is fine and every operation keeps it so, whether it throws or not. -/
theorem heap_ok [DecidableEq U] (ops : List (HeapOp U V)) (hp : ∀ op ∈ ops, op.Proper) :
    ((⟨[], []⟩ : Heap U V).run ops).Ok :=
  run_ok (by intro h hm; simp at hm) hp

/-! ## C33 -/

/-- **C33** (read-only views): modifying anything through a read-only variable is an error. -/
theorem C33_readonly_error [DecidableEq U] (s : Heap U V) (hs : s.Ok) (i : Nat) (h : Handle)
    (hi : s.vars[i]? = some h) (hr : h.view.readonly = true) :
    (∀ l, s.exec (.write i l) = .error .variable) ∧ (∀ u, s.exec (.setUnit i u) = .error .variable) ∧
    (s.exec (.setVariances i none) = .error .variable) ∧
    (∀ j, (s.vars[j]?).isSome → s.exec (.setVariances i (some j)) = .error .variable) := by
  obtain ⟨o, ho, _⟩ := hs h (List.mem_of_getElem? hi)
  have hm : ∀ f : Obj U V → View → Except Err (Obj U V), f o h.view = .error .variable →
      s.modify i f = .error .variable := by
    intro f hf
    simp only [Heap.modify, hi, ho, hf]
  have hw : expectWritable h.view = .error .variable := by simp [expectWritable, hr]
  refine ⟨fun l => hm _ (by simp [Obj.checkedWrite, hw]), fun u => ?_, ?_, fun j hj => ?_⟩
  · simp only [Heap.exec]; exact hm _ (by simp [Obj.setUnit, hw])
  · simp only [Heap.exec]; exact hm _ (by simp [Obj.setVariances, hw])
  obtain ⟨hd, hjd⟩ := Option.isSome_iff_exists.1 hj
  obtain ⟨o2, ho2, _⟩ := hs hd (List.mem_of_getElem? hjd)
  simp only [Heap.exec, lookup_eq hjd ho2]
  exact hm _ (by simp [Obj.setVariances, hw])

/-- **C33** (inheritance): every view derived from a read-only view is read-only. -/
theorem C33_inherited (v v' : View) (op : ViewOp) (h : op.apply v = .ok v') (hr : v.readonly = true) :
    v'.readonly = true := apply_readonly h hr

/-- **C33** (inheritance, flatten): flattening a read-only view gives a read-only view (if it does
not make a copy). -/
theorem C33_inherited_flatten (v v' : View) (ls : List Dim) (d : Dim) (h : v.flatten? ls d = .ok (some v'))
    (hr : v.readonly = true) : v'.readonly = true := by rw [flatten_readonly h]; exact hr

theorem exec_readonly [DecidableEq U] {s s' : Heap U V} {op : HeapOp U V} {k : Nat} (hk : k < s.objs.length)
    (hr : ∀ h ∈ s.vars, h.obj = k → h.view.readonly = true) (h : s.exec op = .ok s') :
    k < s'.objs.length ∧ (∀ h ∈ s'.vars, h.obj = k → h.view.readonly = true) ∧ s'.objs[k]? = s.objs[k]? := by
  cases exec_shape h with
  | fresh o v he =>
    subst he
    refine ⟨by simp only [Heap.addObj, List.length_append]; omega, ?_, ?_⟩
    · intro h' hm hk'
      simp only [Heap.addObj, List.mem_append, List.mem_singleton] at hm
      rcases hm with hm | rfl
      · exact hr h' hm hk'
      · simp only at hk'; omega
    · simp only [Heap.addObj]
      rw [List.getElem?_append_left hk]
  | var hd v hmem hro he =>
    subst he
    refine ⟨hk, ?_, rfl⟩
    intro h' hm hk'
    simp only [Heap.addVar, List.mem_append, List.mem_singleton] at hm
    rcases hm with hm | rfl
    · exact hr h' hm hk'
    · exact hro (hr hd hmem hk')
  | rebind i hd hmem he =>
    subst he
    refine ⟨hk, ?_, rfl⟩
    intro h' hm hk'
    rcases List.mem_or_eq_of_mem_set hm with hm | rfl
    · exact hr h' hm hk'
    · exact hr h' hmem hk'
  | modify i hd o o' h1 h2 hro _ he =>
    subst he
    refine ⟨by simpa [Heap.setObj] using hk, hr, ?_⟩
    have hne : hd.obj ≠ k := by
      intro e
      rw [hr hd (List.mem_of_getElem? h1) e] at hro
      simp at hro
    simp only [Heap.setObj]
    rw [List.getElem?_set_ne hne]

/-- **C33** (histories): if all variables referring to an object are read-only, then whatever the
program does, element values, variances and unit of this object never change, and no
writable variable referring to it is ever obtained. -/
theorem C33_history [DecidableEq U] (ops : List (HeapOp U V)) : ∀ (s : Heap U V) (k : Nat), k < s.objs.length →
    (∀ h ∈ s.vars, h.obj = k → h.view.readonly = true) →
    (s.run ops).objs[k]? = s.objs[k]? ∧ ∀ h ∈ (s.run ops).vars, h.obj = k → h.view.readonly = true := by
  induction ops with
  | nil => intro s k _ hr; exact ⟨rfl, hr⟩
  | cons op ops ih =>
    intro s k hk hr
    have hstep : k < (s.step op).objs.length ∧
        (∀ h ∈ (s.step op).vars, h.obj = k → h.view.readonly = true) ∧ (s.step op).objs[k]? = s.objs[k]? := by
      simp only [Heap.step]
      cases h : s.exec op with
      | error e => exact ⟨hk, hr, rfl⟩
      | ok s' => exact exec_readonly hk hr h
    obtain ⟨h1, h2, h3⟩ := hstep
    obtain ⟨g1, g2⟩ := ih (s.step op) k h1 h2
    exact ⟨g1.trans h3, g2⟩

/-- **C33** (partial views): through a variable that does not refer to all elements of the buffer,
the unit cannot be changed and variances can neither be set nor removed. -/
theorem C33_view_of_part [DecidableEq U] (s : Heap U V) (hs : s.Ok) (i : Nat) (h : Handle) (o : Obj U V)
    (hi : s.vars[i]? = some h) (ho : s.objs[h.obj]? = some o)
    (hp : ∃ a, 0 ≤ a ∧ a < o.values.size ∧ ∀ c, InDims h.view.dims c → h.view.addr c ≠ a) :
    (∀ u, u ≠ o.unit → s.step (.setUnit i u) = s) ∧ ∀ j, s.step (.setVariances i j) = s := by
  obtain ⟨o', ho', hv⟩ := hs h (List.mem_of_getElem? hi)
  rw [ho] at ho'
  injection ho' with ho'
  subst ho'
  have key : h.view.readonly = false → isSlice h.view o.values.size = true := by
    intro hr
    obtain ⟨hw, hb, hd⟩ := viewOf_good hv
    cases hsl : isSlice h.view o.values.size with
    | true => rfl
    | false =>
      simp only [isSlice, Bool.or_eq_false_iff, bne_eq_false_iff_eq] at hsl
      obtain ⟨a, h0, h1, hno⟩ := hp
      obtain ⟨c, hc, he⟩ := covers_of_volume hw hb (hd hr) hsl.2 a h0 h1
      exact absurd he (hno c hc)
  constructor
  · intro u hu
    simp only [Heap.step]
    cases hx : s.exec (.setUnit i u) with
    | error e => rfl
    | ok s' =>
      simp only [Heap.exec] at hx
      obtain ⟨hd, o1, o2, h1, h2, h3, h4⟩ := modify_ok hx
      rw [hi] at h1
      injection h1 with h1
      subst h1
      rw [ho] at h2
      injection h2 with h2
      subst h2
      obtain ⟨hr, _, hor⟩ := setUnit_ok h3
      rcases hor with e | e
      · exact absurd e.symm hu
      · rw [key hr] at e; simp at e
  · intro j
    simp only [Heap.step]
    cases hx : s.exec (.setVariances i j) with
    | error e => rfl
    | ok s' =>
      exfalso
      have : ∃ src, s.modify i (fun o v => o.setVariances v src) = .ok s' := by
        cases j with
        | none => exact ⟨_, hx⟩
        | some j =>
          simp only [Heap.exec] at hx
          split at hx
          · simp at hx
          · exact ⟨_, hx⟩
      obtain ⟨src, hx⟩ := this
      obtain ⟨hd, o1, o2, h1, h2, h3, h4⟩ := modify_ok hx
      rw [hi] at h1
      injection h1 with h1
      subst h1
      rw [ho] at h2
      injection h2 with h2
      subst h2
      obtain ⟨hr, hsl, _⟩ := setVariances_ok h3
      rw [key hr] at hsl
      simp at hsl

/-- **C33** (complete views): conversely, through a writable variable that refers to all
elements the unit can be changed, however it was derived. -/
theorem C33_complete_view [DecidableEq U] (s : Heap U V) (hs : s.Ok) (i : Nat) (h : Handle) (o : Obj U V)
    (hi : s.vars[i]? = some h) (ho : s.objs[h.obj]? = some o) (hr : h.view.readonly = false)
    (hn : 0 < o.values.size)
    (hc : ∀ a, 0 ≤ a → a < o.values.size → ∃ c, InDims h.view.dims c ∧ h.view.addr c = a) (u : U) :
    ∃ s', s.exec (.setUnit i u) = .ok s' ∧ s'.unit i = .ok u := by
  obtain ⟨o', ho', hv⟩ := hs h (List.mem_of_getElem? hi)
  rw [ho] at ho'
  injection ho' with ho'
  subst ho'
  obtain ⟨hw, hb, hd⟩ := viewOf_good hv
  obtain ⟨h1, h2⟩ := volume_of_covers hw hb (hd hr) hn hc
  have hsl : isSlice h.view o.values.size = false := by simp [isSlice, h1, h2]
  refine ⟨s.setObj h.obj { o with unit := u }, ?_, ?_⟩
  · simp only [Heap.exec, Heap.modify, hi, ho, Obj.setUnit, expectWritable, hr, hsl]
    simp
  · have : (s.setObj h.obj { o with unit := u }).objs[h.obj]? = some { o with unit := u } := by
      simp only [Heap.setObj]
      rw [List.getElem?_set_self (List.getElem?_eq_some_iff.1 ho).1]
    simp only [Heap.unit, lookup_eq (s := s.setObj h.obj { o with unit := u }) (i := i) (hd := h) hi this]

/-! ## C52 -/

/-- **C52** (sharing): a write through one variable is seen through exactly those variables and
coordinates that refer to the same element of the same object; everything else is unchanged. -/
theorem C52_write_seen [DecidableEq U] (s s' : Heap U V) (hs : s.Ok) (i j : Nat) (hi hj : Handle)
    (c c' : Dim → Int) (x y : V) (h : s.exec (.write i [(c, x, y)]) = .ok s')
    (hvi : s.vars[i]? = some hi) (hvj : s.vars[j]? = some hj) (hc' : InDims hj.view.dims c') :
    (hj.obj = hi.obj ∧ hj.view.addr c' = hi.view.addr c → s'.value j c' = .ok x) ∧
    (¬ (hj.obj = hi.obj ∧ hj.view.addr c' = hi.view.addr c) → s'.value j c' = s.value j c' ∧
      s'.variance j c' = s.variance j c') ∧
    s'.unit j = s.unit j := by
  simp only [Heap.exec] at h
  obtain ⟨hd, o, o', h1, h2, h3, h4⟩ := modify_ok h
  rw [hvi] at h1
  injection h1 with h1
  subst h1
  obtain ⟨hr, hw⟩ := checkedWrite_ok h3
  have hu := (write_sizes hw).2.1
  have hz := (write_sizes hw).1
  have hvj' : s'.vars[j]? = some hj := by rw [h4]; exact hvj
  obtain ⟨oj, hoj, hvoj⟩ := hs hj (List.mem_of_getElem? hvj)
  have hb := (viewOf_good hvoj).2.1 c' hc'
  by_cases hobj : hj.obj = hi.obj
  · rw [hobj, h2] at hoj
    injection hoj with hoj
    subst hoj
    have hlo : s.lookup j = some (o, hj.view) := lookup_eq hvj (by rw [hobj]; exact h2)
    have hln : s'.lookup j = some (o', hj.view) := lookup_eq hvj' (by
      rw [h4, hobj]
      simp only [Heap.setObj]
      rw [List.getElem?_set_self (List.getElem?_eq_some_iff.1 h2).1])
    -- contents of the written object
    have hcont : o'.values.at_ = Function.update o.values.at_ (hi.view.addr c) x ∧
        (o'.variances = none ∧ o.variances = none ∨ ∃ b, o.variances = some b ∧
          o'.variances = some (b.set (hi.view.addr c) y)) := by
      simp only [Obj.write] at hw
      split at hw
      · simp at hw
      rename_i o1 ho1
      injection hw with hw
      subst hw
      simp only [Obj.write1] at ho1
      split at ho1
      · simp at ho1
      split at ho1
      · simp at ho1
      split at ho1
      · rename_i hnone
        injection ho1 with ho1; subst ho1
        exact ⟨rfl, .inl ⟨hnone, hnone⟩⟩
      · rename_i b hsome
        split at ho1
        · simp at ho1
        · injection ho1 with ho1; subst ho1
          exact ⟨rfl, .inr ⟨b, hsome, rfl⟩⟩
    refine ⟨?_, ?_, ?_⟩
    · rintro ⟨_, he⟩
      simp only [Heap.value, hln, hz]
      rw [if_neg (by omega), hcont.1, he, Function.update_self]
    · intro hne
      have hne' : hj.view.addr c' ≠ hi.view.addr c := fun e => hne ⟨hobj, e⟩
      constructor
      · simp only [Heap.value, hln, hlo, hz, hcont.1, Function.update_of_ne hne']
      · simp only [Heap.variance, hln, hlo]
        rcases hcont.2 with ⟨e1, e2⟩ | ⟨b, e1, e2⟩
        · rw [e1, e2]
        · rw [e1, e2]
          simp only [Buffer.set, Function.update_of_ne hne']
    · simp only [Heap.unit, hln, hlo, hu]
  · have hsame : s'.lookup j = s.lookup j := by
      rw [lookup_eq hvj hoj]
      apply lookup_eq hvj'
      rw [h4]
      simp only [Heap.setObj]
      rw [List.getElem?_set_ne (Ne.symm hobj)]
      exact hoj
    refine ⟨fun e => absurd e.1 hobj, fun _ => ?_, ?_⟩
    · simp only [Heap.value, Heap.variance, hsame]; exact ⟨trivial, trivial⟩
    · simp only [Heap.unit, hsame]

theorem exec_frame [DecidableEq U] {s s' : Heap U V} {op : HeapOp U V} {k : Nat} (hk : k < s.objs.length)
    (ht : ∀ i, HeapOp.target op = some i → objOf s i ≠ some k) (h : s.exec op = .ok s') :
    k < s'.objs.length ∧ s'.objs[k]? = s.objs[k]? := by
  have other : ∀ (i : Nat) f, s.modify i f = .ok s' → objOf s i ≠ some k →
      k < s'.objs.length ∧ s'.objs[k]? = s.objs[k]? := by
    intro i f hm hne
    obtain ⟨hd, o, o', h1, h2, h3, h4⟩ := modify_ok hm
    subst h4
    refine ⟨by simpa [Heap.setObj] using hk, ?_⟩
    simp only [Heap.setObj]
    rw [List.getElem?_set_ne]
    intro e
    exact hne (by simp [objOf, h1, e])
  cases op with
  | write i l => exact other i _ h (ht i rfl)
  | setUnit i u => simp only [Heap.exec] at h; exact other i _ h (ht i rfl)
  | setVariances i j =>
    cases j with
    | none => simp only [Heap.exec] at h; exact other i _ h (ht i rfl)
    | some j =>
      simp only [Heap.exec] at h
      split at h
      · simp at h
      · exact other i _ h (ht i rfl)
  | new dims u vals vars =>
    simp only [Heap.exec, Except.ok.injEq] at h
    subst h
    refine ⟨by simp only [Heap.addObj, List.length_append]; omega, ?_⟩
    simp only [Heap.addObj]
    rw [List.getElem?_append_left hk]
  | derive i op =>
    simp only [Heap.exec] at h
    split at h
    · simp at h
    split at h
    · simp at h
    injection h with h; subst h
    exact ⟨hk, rfl⟩
  | flatten i ls d =>
    simp only [Heap.exec] at h
    split at h
    · simp at h
    split at h
    · simp at h
    · injection h with h; subst h; exact ⟨hk, rfl⟩
    · split at h
      · simp at h
      split at h
      · injection h with h; subst h
        refine ⟨by simp only [Heap.addObj, List.length_append]; omega, ?_⟩
        simp only [Heap.addObj]
        rw [List.getElem?_append_left hk]
      · simp at h
      · simp at h
  | deepCopy i =>
    simp only [Heap.exec] at h
    split at h
    · simp at h
    injection h with h; subst h
    refine ⟨by simp only [Heap.addObj, List.length_append]; omega, ?_⟩
    simp only [Heap.addObj]
    rw [List.getElem?_append_left hk]
  | assign i j =>
    simp only [Heap.exec] at h
    split at h
    · simp at h
    split at h
    · injection h with h; subst h; exact ⟨hk, rfl⟩
    · simp at h

/-- No operation of the program modifies data through a variable that, at that moment, refers to
object `k`. -/
def NotThrough [DecidableEq U] (k : Nat) : Heap U V → List (HeapOp U V) → Prop
  | _, [] => True
  | s, op :: ops => (∀ i, HeapOp.target op = some i → objOf s i ≠ some k) ∧ NotThrough k (s.step op) ops

/-- **C52** (nobody else): an object changes only by operations through variables
referring to it. -/
theorem C52_frame [DecidableEq U] (k : Nat) (ops : List (HeapOp U V)) : ∀ (s : Heap U V), k < s.objs.length →
    NotThrough k s ops → (s.run ops).objs[k]? = s.objs[k]? := by
  induction ops with
  | nil => intro s _ _; rfl
  | cons op ops ih =>
    intro s hk hn
    have hstep : k < (s.step op).objs.length ∧ (s.step op).objs[k]? = s.objs[k]? := by
      simp only [Heap.step]
      cases h : s.exec op with
      | error e => exact ⟨hk, rfl⟩
      | ok s' => exact exec_frame hk hn.1 h
    exact (ih (s.step op) hstep.1 hn.2).trans hstep.2

/-- **C52** (shallow copies and views): deriving a view adds a variable referring to the object of
its source and leaves all objects and variables as they are. A plain copy has all elements
of its source. -/
theorem C52_shallow [DecidableEq U] (s s' : Heap U V) (i : Nat) (op : ViewOp)
    (h : s.exec (.derive i op) = .ok s') :
    s'.objs = s.objs ∧ (∀ j, j < s.vars.length → s'.vars[j]? = s.vars[j]?) ∧
    objOf s' s.vars.length = objOf s i ∧ (objOf s i).isSome ∧
    (op = .same → ∀ c, s'.value s.vars.length c = s.value i c ∧ s'.variance s.vars.length c = s.variance i c) := by
  simp only [Heap.exec] at h
  split at h
  · simp at h
  rename_i hd hv
  split at h
  · simp at h
  rename_i v happ
  injection h with h
  subst h
  refine ⟨rfl, ?_, ?_, by simp [objOf, hv], ?_⟩
  · intro j hj
    simp only [Heap.addVar]
    rw [List.getElem?_append_left hj]
  · simp [objOf, hv, Heap.addVar]
  · rintro rfl c
    simp only [ViewOp.apply, Except.ok.injEq] at happ
    subst happ
    have : (s.addVar ⟨hd.obj, hd.view⟩).lookup s.vars.length = s.lookup i := by
      simp only [Heap.lookup, Heap.addVar, hv]
      simp
    simp only [Heap.value, Heap.variance, this]
    exact ⟨trivial, trivial⟩

/-- **C52** (deep copies): a deep copy has the elements, variances and unit of its source, and
refers to an object no other variable refers to; nothing else changes. -/
theorem C52_deep [DecidableEq U] (s s' : Heap U V) (hs : s.Ok) (i : Nat) (h : s.exec (.deepCopy i) = .ok s') :
    (∀ j, j < s.vars.length → s'.vars[j]? = s.vars[j]?) ∧
    (∀ k, k < s.objs.length → s'.objs[k]? = s.objs[k]?) ∧
    objOf s' s.vars.length = some s.objs.length ∧
    (∀ j, j ≠ s.vars.length → objOf s' j ≠ some s.objs.length) ∧
    s'.unit s.vars.length = s.unit i ∧
    ∃ hd, s.vars[i]? = some hd ∧ ∀ c, InDims hd.view.dims c →
      s'.value s.vars.length c = s.value i c ∧
      (∀ y, s.variance i c = .ok y → s'.variance s.vars.length c = .ok y) ∧
      (s.variance i c = .error .variances → s'.variance s.vars.length c = .error .variances) := by
  simp only [Heap.exec] at h
  split at h
  · simp at h
  rename_i o v hl
  injection h with h
  obtain ⟨hd, h1, h2, h3⟩ := lookup_some hl
  simp only at h2 h3
  obtain ⟨o', ho', hvo⟩ := hs hd (List.mem_of_getElem? h1)
  rw [h2] at ho'
  injection ho' with ho'
  subst ho'
  rw [h3] at hvo
  have hw := viewOf_WF hvo
  have hln : s'.lookup s.vars.length = some (o.gather v, View.fresh v.dims) := by
    rw [← h]
    apply lookup_eq (hd := ⟨s.objs.length, View.fresh v.dims⟩)
    · simp [Heap.addObj]
    · simp [Heap.addObj]
  refine ⟨?_, ?_, ?_, ?_, ?_, hd, h1, ?_⟩
  · intro j hj
    rw [← h]
    simp only [Heap.addObj]
    rw [List.getElem?_append_left hj]
  · intro k hk
    rw [← h]
    simp only [Heap.addObj]
    rw [List.getElem?_append_left hk]
  · rw [← h]; simp [objOf, Heap.addObj]
  · intro j hj
    rw [← h]
    simp only [objOf, Heap.addObj]
    by_cases hlt : j < s.vars.length
    · rw [List.getElem?_append_left hlt]
      rw [List.getElem?_eq_getElem hlt]
      obtain ⟨oj, hoj, _⟩ := hs _ (List.getElem_mem hlt)
      have := (List.getElem?_eq_some_iff.1 hoj).1
      simp only [Option.map_some]
      intro e
      injection e with e
      omega
    · rw [List.getElem?_eq_none (by simp only [List.length_append, List.length_singleton]; omega)]
      simp
  · simp only [Heap.unit, hln, hl, Obj.gather]
  · intro c hc
    rw [h3] at hc
    have hp := position_bounds hc
    have hb := (viewOf_good hvo).2.1 c hc
    have haddr : (View.fresh v.dims).addr c = position v.dims c := by
      simp only [View.addr, View.fresh, position_eq]; ring
    have hread : v.addr (coordsOf v.dims (position v.dims c)) = v.addr c := by
      simp only [View.addr]
      rw [addrAux_congr (fun d hdm => coordsOf_position hw.1.1 hc d hdm)]
    refine ⟨?_, ?_, ?_⟩
    · simp only [Heap.value, hln, hl, haddr, Obj.gather, Buffer.gather]
      rw [if_neg (by omega), if_neg (by omega), hread]
    · intro y hy
      simp only [Heap.variance, hl] at hy
      simp only [Heap.variance, hln, haddr, Obj.gather]
      cases hv : o.variances with
      | none => rw [hv] at hy; simp at hy
      | some b =>
        rw [hv] at hy
        simp only at hy
        split at hy
        · simp at hy
        simp only [Option.map_some, Buffer.gather]
        rw [if_neg (by omega), hread]
        exact hy
    · intro hy
      simp only [Heap.variance, hl] at hy
      simp only [Heap.variance, hln, Obj.gather]
      cases hv : o.variances with
      | none => rfl
      | some b =>
        rw [hv] at hy
        simp only at hy
        split at hy
        · injection hy with hy; exact absurd hy (by decide)
        · simp at hy

/-- Which variables belong to the family of a copy: the copy itself and everything
obtained from members by views, flattening and assignment. -/
def family [DecidableEq U] (s : Heap U V) (fam : List Bool) (op : HeapOp U V) : List Bool :=
  match s.exec op with
  | .error _ => fam
  | .ok s' => match op with
    | .derive i _ => fam ++ [fam.getD i false]
    | .flatten i _ _ => fam ++ [fam.getD i false && decide (s'.objs.length = s.objs.length)]
    | .assign i j => fam.set i (fam.getD j false)
    | .new _ _ _ _ => fam ++ [false]
    | .deepCopy _ => fam ++ [false]
    | _ => fam

/-- Running a program while keeping track of the family. -/
def runFamily [DecidableEq U] : Heap U V → List Bool → List (HeapOp U V) → List Bool
  | _, fam, [] => fam
  | s, fam, op :: ops => runFamily (s.step op) (family s fam op) ops

/-- Family members are exactly the variables referring to the object. -/
def FamilyOk (s : Heap U V) (fam : List Bool) (k : Nat) : Prop :=
  fam.length = s.vars.length ∧ k < s.objs.length ∧ ∀ j h, s.vars[j]? = some h → (fam.getD j false = true ↔ h.obj = k)

theorem FamilyOk.append {s s' : Heap U V} {fam : List Bool} {k : Nat} {h : Handle} {b : Bool}
    (hf : FamilyOk s fam k) (hv : s'.vars = s.vars ++ [h]) (hk : k < s'.objs.length) (hb : b = true ↔ h.obj = k) :
    FamilyOk s' (fam ++ [b]) k := by
  obtain ⟨h1, h2, h3⟩ := hf
  refine ⟨by rw [hv]; simp [h1], hk, ?_⟩
  intro j hd hj
  rw [hv] at hj
  by_cases hlt : j < s.vars.length
  · rw [List.getElem?_append_left hlt] at hj
    rw [List.getD_eq_getElem?_getD, List.getElem?_append_left (by omega), ← List.getD_eq_getElem?_getD]
    exact h3 j hd hj
  · have hje : j = s.vars.length := by
      have := (List.getElem?_eq_some_iff.1 hj).1
      simp only [List.length_append, List.length_singleton] at this
      omega
    subst hje
    simp only [List.getElem?_concat_length, Option.some.injEq] at hj
    subst hj
    rw [← h1]
    simp only [List.getD_eq_getElem?_getD, List.getElem?_concat_length, Option.getD_some]
    exact hb

theorem family_step [DecidableEq U] {s : Heap U V} {fam : List Bool} {k : Nat} (op : HeapOp U V)
    (hf : FamilyOk s fam k) : FamilyOk (s.step op) (family s fam op) k := by
  simp only [Heap.step, family]
  cases h : s.exec op with
  | error e => exact hf
  | ok s' =>
    have hf' := hf
    obtain ⟨h1, h2, h3⟩ := hf'
    have modif : ∀ (i : Nat) f, s.modify i f = .ok s' → FamilyOk s' fam k := by
      intro i f hm
      obtain ⟨hd, o, o', _, _, _, h4⟩ := modify_ok hm
      subst h4
      exact ⟨h1, by simpa [Heap.setObj] using h2, h3⟩
    have hne : s.objs.length ≠ k := by omega
    cases op with
    | write i l => exact modif i _ h
    | setUnit i u => simp only [Heap.exec] at h; exact modif i _ h
    | setVariances i j =>
      cases j with
      | none => simp only [Heap.exec] at h; exact modif i _ h
      | some j =>
        simp only [Heap.exec] at h
        split at h
        · simp at h
        · exact modif i _ h
    | new dims u vals vars =>
      simp only [Heap.exec, Except.ok.injEq] at h
      subst h
      exact hf.append (h := ⟨s.objs.length, View.fresh dims⟩) rfl
        (by simp only [Heap.addObj, List.length_append]; omega) (by simp [hne])
    | derive i op =>
      simp only [Heap.exec] at h
      split at h
      · simp at h
      rename_i hd hv
      split at h
      · simp at h
      rename_i v happ
      injection h with h; subst h
      exact hf.append (h := ⟨hd.obj, v⟩) rfl h2 (h3 i hd hv)
    | flatten i ls d =>
      simp only [Heap.exec] at h
      split at h
      · simp at h
      rename_i hd hv
      split at h
      · simp at h
      · rename_i v happ
        injection h with h; subst h
        exact hf.append (h := ⟨hd.obj, v⟩) rfl h2 (by simpa [Heap.addVar] using h3 i hd hv)
      · split at h
        · simp at h
        rename_i o ho
        split at h
        · rename_i v happ
          injection h with h; subst h
          exact hf.append (h := ⟨s.objs.length, v⟩) rfl
            (by simp only [Heap.addObj, List.length_append]; omega) (by simp [Heap.addObj, hne])
        · simp at h
        · simp at h
    | deepCopy i =>
      simp only [Heap.exec] at h
      split at h
      · simp at h
      rename_i o v hl
      injection h with h; subst h
      exact hf.append (h := ⟨s.objs.length, View.fresh v.dims⟩) rfl
        (by simp only [Heap.addObj, List.length_append]; omega) (by simp [hne])
    | assign i j =>
      simp only [Heap.exec] at h
      split at h
      · simp at h
      rename_i hd hv
      split at h
      · rename_i hlt
        injection h with h; subst h
        refine ⟨by simp [h1], h2, ?_⟩
        intro j' hd' hj'
        simp only at hj'
        simp only [List.getD_eq_getElem?_getD]
        by_cases he : i = j'
        · subst he
          rw [List.getElem?_set_self hlt] at hj'
          injection hj' with hj'
          subst hj'
          rw [List.getElem?_set_self (by omega)]
          simpa using h3 j hd hv
        · rw [List.getElem?_set_ne he] at hj' ⊢
          rw [← List.getD_eq_getElem?_getD]
          exact h3 j' hd' hj'
      · simp at h

/-- **C52** (families): in any program, exactly the variables obtained from the copy refer to the
object of the copy. -/
theorem C52_family [DecidableEq U] (k : Nat) (ops : List (HeapOp U V)) : ∀ (s : Heap U V) (fam : List Bool),
    FamilyOk s fam k → FamilyOk (s.run ops) (runFamily s fam ops) k := by
  induction ops with
  | nil => intro s fam h; exact h
  | cons op ops ih => intro s fam h; exact ih _ _ (family_step op h)

/-- All modifications in the program go through variables that are (`b = true`), or are not
(`b = false`), in the family at that moment. -/
def OnlyThrough [DecidableEq U] (b : Bool) : Heap U V → List Bool → List (HeapOp U V) → Prop
  | _, _, [] => True
  | s, fam, op :: ops => (∀ i, HeapOp.target op = some i → fam.getD i false = b) ∧
      OnlyThrough b (s.step op) (family s fam op) ops

theorem notThrough_of_only [DecidableEq U] (k : Nat) (ops : List (HeapOp U V)) : ∀ (s : Heap U V) (fam : List Bool),
    FamilyOk s fam k → OnlyThrough false s fam ops → NotThrough k s ops := by
  induction ops with
  | nil => intro s fam _ _; trivial
  | cons op ops ih =>
    intro s fam hf ho
    refine ⟨?_, ih _ _ (family_step op hf) ho.2⟩
    intro i hi he
    simp only [objOf, Option.map_eq_some_iff] at he
    obtain ⟨h, hh, hk⟩ := he
    have := (hf.2.2 i h hh).2 hk
    rw [ho.1 i hi] at this
    simp at this

theorem notThrough_of_only' [DecidableEq U] (k k' : Nat) (hkk : k' ≠ k) (ops : List (HeapOp U V)) :
    ∀ (s : Heap U V) (fam : List Bool),
    FamilyOk s fam k → OnlyThrough true s fam ops → NotThrough k' s ops := by
  induction ops with
  | nil => intro s fam _ _; trivial
  | cons op ops ih =>
    intro s fam hf ho
    refine ⟨?_, ih _ _ (family_step op hf) ho.2⟩
    intro i hi he
    simp only [objOf, Option.map_eq_some_iff] at he
    obtain ⟨h, hh, hk⟩ := he
    have := (hf.2.2 i h hh).1 (ho.1 i hi)
    exact hkk (hk.symm.trans this)

/-- **C52** (independence): after a deep copy, whatever is done through variables not
obtained from the copy leaves the copy unchanged, and whatever is done through the copy and
variables obtained from it leaves everything that existed before unchanged. -/
theorem C52_independent [DecidableEq U] (s s' : Heap U V) (hs : s.Ok) (i : Nat) (h : s.exec (.deepCopy i) = .ok s')
    (ops : List (HeapOp U V)) :
    (OnlyThrough false s' (List.replicate s.vars.length false ++ [true]) ops →
      (s'.run ops).objs[s.objs.length]? = s'.objs[s.objs.length]?) ∧
    (OnlyThrough true s' (List.replicate s.vars.length false ++ [true]) ops →
      ∀ k, k < s.objs.length → (s'.run ops).objs[k]? = s.objs[k]?) := by
  obtain ⟨h1, h2, h3, h4, _⟩ := C52_deep s s' hs i h
  have hlen : s'.objs.length = s.objs.length + 1 ∧ s'.vars.length = s.vars.length + 1 := by
    simp only [Heap.exec] at h
    split at h
    · simp at h
    injection h with h; subst h
    simp [Heap.addObj]
  have hf : FamilyOk s' (List.replicate s.vars.length false ++ [true]) s.objs.length := by
    refine ⟨by simp [hlen.2], by omega, ?_⟩
    intro j hd hj
    by_cases hje : j = s.vars.length
    · subst hje
      simp only [objOf, hj, Option.map_some, Option.some.injEq] at h3
      simp [h3, List.getD_eq_getElem?_getD]
    · have hlt : j < s.vars.length := by
        have := (List.getElem?_eq_some_iff.1 hj).1
        omega
      have := h4 j hje
      simp only [objOf, hj, Option.map_some, ne_eq, Option.some.injEq] at this
      simp [this, List.getD_eq_getElem?_getD, List.getElem?_append_left, hlt]
  constructor
  · intro ho
    exact C52_frame _ ops s' (by omega) (notThrough_of_only _ ops s' _ hf ho)
  · intro ho k hk
    rw [C52_frame k ops s' (by omega) (notThrough_of_only' _ k (by omega) ops s' _ hf ho)]
    exact h2 k hk

/-! ## C55 -/

/-- **C55** (partial: requires that the argument is laid out in memory like the target): after
`setVariances` every element has as variance the value of the corresponding element of
the argument. For arguments laid out differently see the counterexamples below. -/
theorem C55_set_variances_partial [DecidableEq U] (s s' : Heap U V) (i j : Nat) (hi hj : Handle)
    (h : s.exec (.setVariances i (some j)) = .ok s') (hvi : s.vars[i]? = some hi) (hvj : s.vars[j]? = some hj)
    (hlay : hj.view.strides = hi.view.strides ∧ hj.view.offset = 0) (c : Dim → Int) :
    s'.variance i c = s.value j c := by
  simp only [Heap.exec] at h
  split at h
  · simp at h
  rename_i src hl
  obtain ⟨hd, o, o', h1, h2, h3, h4⟩ := modify_ok h
  rw [hvi] at h1
  injection h1 with h1
  subst h1
  obtain ⟨so, sv⟩ := src
  obtain ⟨_, hsl, _, _, hvar, _, hdims, _⟩ := setVariances_ok h3
  obtain ⟨hd', g1, g2, g3⟩ := lookup_some hl
  rw [hvj] at g1
  injection g1 with g1
  subst g1
  simp only at g2 g3
  simp only [isSlice, Bool.or_eq_false_iff, bne_eq_false_iff_eq] at hsl
  have hln : s'.lookup i = some (o', hi.view) := by
    rw [h4]
    apply lookup_eq
    · exact hvi
    · simp only [Heap.setObj]
      rw [List.getElem?_set_self (List.getElem?_eq_some_iff.1 h2).1]
  have ha : hi.view.addr c = sv.addr c := by
    simp only [View.addr, hsl.1, hdims, ← g3, hlay.2, hlay.1]
  simp only [Heap.variance, hln, hvar, Heap.value, hl, ha]

/-- Program state for the examples: variable 0 has 2 elements `5, 6`, variable 1 four elements
`10, 11, 12, 13`, both one-dimensional. -/
def exHeap : Heap Nat Int :=
  (⟨[], []⟩ : Heap Nat Int).run
    [.new [(1, 2)] 0 (fun k => 5 + k) none, .new [(1, 4)] 0 (fun k => 10 + k) none]

/-- **C55** is false if the argument is a slice: elements `12, 13` are passed, but the variances
become `10, 11`. -/
theorem C55_wrong_for_slice :
    let s := exHeap.step (.derive 1 (.slice ⟨1, 2, 4, 1⟩))
    s.value 2 (fun _ => 0) = .ok 12 ∧
    (s.step (.setVariances 0 (some 2))).variance 0 (fun _ => 0) = .ok 10 := by decide

/-- **C55** is false if the argument is a broadcast: the variances buffer is too short, so that
reading the variances is undefined behavior. -/
theorem C55_wrong_for_broadcast :
    let s := (exHeap.step (.new [] 0 (fun _ => 7) none)).step (.derive 2 (.broadcast [(1, 2)]))
    s.value 3 (fun _ => 1) = .ok 7 ∧
    (s.step (.setVariances 0 (some 3))).variance 0 (fun _ => 1) = .error .ub := by decide

/-- **C55** is false if the argument is transposed: the variances end up at the wrong elements. -/
theorem C55_wrong_for_transposed :
    let s := ((exHeap.step (.new [(1, 2), (2, 2)] 0 (fun k => k) none)).step
      (.new [(2, 2), (1, 2)] 0 (fun k => 20 + k) none)).step (.derive 3 (.transpose [1, 2]))
    let c : Dim → Int := fun d => if d = 1 then 0 else 1
    s.value 4 c = .ok 22 ∧ (s.step (.setVariances 2 (some 4))).variance 2 c = .ok 21 := by decide

/-! The hypotheses of the theorems above hold for the heap with two variables, some of their views and copies. -/

private theorem exHeap_ok : exHeap.Ok := heap_ok _ (by
  intro op ho
  simp only [List.mem_cons, List.not_mem_nil, or_false] at ho
  rcases ho with rfl | rfl <;> simp [HeapOp.Proper, Sizes.WF])

/-- **C33** (copies): a variable that was constructed, and a deep copy even of a read-only variable, is writable. -/
theorem C33_fresh_writable [DecidableEq U] (s s' : Heap U V) (op : HeapOp U V)
    (hop : (∃ dims u x y, op = .new dims u x y) ∨ ∃ i, op = .deepCopy i) (h : s.exec op = .ok s') :
    ∃ hd, s'.vars[s.vars.length]? = some hd ∧ hd.view.readonly = false := by
  rcases hop with ⟨dims, u, x, y, rfl⟩ | ⟨i, rfl⟩
  · cases h
    exact ⟨_, by simp only [Heap.addObj]; exact List.getElem?_concat_length, rfl⟩
  · simp only [Heap.exec] at h
    split at h
    · cases h
    · cases h
      exact ⟨_, by simp only [Heap.addObj]; exact List.getElem?_concat_length, rfl⟩

private theorem exHeap_const_ok : (exHeap.step (.derive 1 .asConst)).Ok := by
  exact run_ok (ops := [.derive 1 .asConst]) exHeap_ok (by simp [HeapOp.Proper, ViewOp.Proper])

example := C33_fresh_writable (exHeap.step (.derive 1 .asConst)) _ (.deepCopy 2) (.inr ⟨_, rfl⟩) rfl
example := C33_readonly_error (exHeap.step (.derive 1 .asConst)) exHeap_const_ok 2 ⟨1, ⟨[(1, 4)], [1], 0, true⟩⟩ rfl rfl
example := C33_inherited ⟨[(1, 4)], [1], 0, true⟩ ⟨[(1, 2)], [1], 1, true⟩ (.slice ⟨1, 1, 3, 1⟩) (by decide) rfl
example := C33_inherited_flatten ⟨[(1, 4), (2, 3)], [3, 1], 0, true⟩ ⟨[(5, 12)], [1], 0, true⟩ [1, 2] 5 (by decide) rfl
example := C33_history [.derive 2 (.slice ⟨1, 1, 3, 1⟩), .write 3 [(fun _ => 0, 7, 7)]] ((exHeap.step (.derive 1 .asConst)).step (.assign 1 2))
  1 (by decide) (by decide)
example := C33_view_of_part (exHeap.step (.derive 1 (.slice ⟨1, 0, 4, 2⟩)))
  (run_ok (ops := [.derive 1 (.slice ⟨1, 0, 4, 2⟩)]) exHeap_ok
    (by intro op ho; rw [List.mem_singleton.mp ho]; exact .inr (.inl (by decide)))) 2
  ⟨1, ⟨[(1, 2)], [2], 0, false⟩⟩ _ rfl rfl ⟨1, by decide, by decide, fun c hc => by
    have := hc 1 2 (by simp)
    simp only [View.addr, addrAux_cons, addrAux_nil]
    omega⟩
example := C33_complete_view exHeap exHeap_ok 1 ⟨1, ⟨[(1, 4)], [1], 0, false⟩⟩ _ rfl rfl rfl (by decide)
  (fun a h0 h1 => ⟨fun _ => a, by
    intro d n h
    simp at h
    obtain ⟨rfl, rfl⟩ := h
    exact ⟨h0, h1⟩, by simp [View.addr, addrAux_cons, addrAux_nil]⟩) 7
example := C52_write_seen exHeap _ exHeap_ok 1 1 ⟨1, ⟨[(1, 4)], [1], 0, false⟩⟩ ⟨1, ⟨[(1, 4)], [1], 0, false⟩⟩ (fun _ => 2) (fun _ => 2)
  99 0 rfl rfl rfl (by simp [InDims])
example := C52_frame 0 [.write 1 [(fun _ => 2, 99, 0)], .deepCopy 0, .setUnit 2 5] exHeap (by decide)
  ⟨by rintro i ⟨⟩; decide, by rintro i ⟨⟩, by rintro i ⟨⟩; decide, trivial⟩
example := C52_shallow exHeap _ 1 (.slice ⟨1, 1, 3, 1⟩) rfl
example := C52_deep exHeap _ exHeap_ok 1 rfl
example := C52_family 1 [.derive 1 .same, .deepCopy 1, .assign 0 2] exHeap [false, true] ⟨rfl, by decide, by
  intro j h hj
  rcases j with _ | _ | j
  · cases hj; decide
  · cases hj; decide
  · simp [exHeap, Heap.run, Heap.step, Heap.exec, Heap.addObj] at hj⟩
/-- After copying variable 1 (to variable 2), writing to the original and to a view of it does not affect the copy. -/
example := (C52_independent exHeap _ exHeap_ok 1 rfl [.write 1 [(fun _ => 2, 99, 0)], .derive 1 .same, .write 3 [(fun _ => 2, 98, 0)]]).1
  ⟨by rintro i ⟨⟩; decide, by rintro i ⟨⟩, by rintro i ⟨⟩; decide, trivial⟩
example := C55_set_variances_partial (exHeap.step (.deepCopy 0)) _ 0 2 ⟨0, ⟨[(1, 2)], [1], 0, false⟩⟩ ⟨2, ⟨[(1, 2)], [1], 0, false⟩⟩ rfl rfl rfl
  ⟨rfl, rfl⟩

/-! ## examples -/

/-- Hypotheses of `C33_history` and `C33_readonly_error`: the last variable is read-only. -/
example : let s := (exHeap.step (.derive 1 .asConst)).step (.assign 1 2)
    s.objs.length = 2 ∧ (s.vars.map (fun h => (h.obj, h.view.readonly))) = [(0, false), (1, true), (1, true)] := by
  decide

/-- Hypotheses of `C33_view_of_part`: a strided slice does not contain element 1. -/
example : ∃ v, (View.fresh [(1, 4)]).slice ⟨1, 0, 4, 2⟩ = .ok v ∧ v.offset = 0 ∧
    ∀ c, InDims v.dims c → v.addr c ≠ 1 := by
  refine ⟨⟨[(1, 2)], [2], 0, false⟩, by decide, rfl, ?_⟩
  intro c hc
  have := hc 1 2 (by simp)
  simp only [View.addr, addrAux_cons, addrAux_nil]
  omega

/-- A write through a slice is seen by the whole, and not by a copy made before. -/
example : let s := (exHeap.step (.deepCopy 1)).step (.derive 1 (.slice ⟨1, 1, 3, 1⟩))
    let s' := s.step (.write 3 [(fun _ => 1, 99, 0)])
    s'.value 3 (fun _ => 1) = .ok 99 ∧ s'.value 1 (fun _ => 2) = .ok 99 ∧ s'.value 1 (fun _ => 1) = .ok 11 ∧
    s'.value 2 (fun _ => 2) = .ok 12 := by decide

/-- `C55_set_variances_partial`: two variables of the same layout. -/
example : let s := exHeap.step (.deepCopy 0)
    (s.step (.setVariances 0 (some 2))).variance 0 (fun _ => 1) = .ok 6 := by decide

end Scipp.Props
