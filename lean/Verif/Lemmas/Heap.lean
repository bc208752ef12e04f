import Verif.Model.Heap
import Verif.Props.View
import Mathlib.Data.Finset.Card
import Mathlib.Data.Int.Interval
/-!
Lemmas about the heap model.
-/
namespace Scipp
open Sizes Props
variable {U V : Type}

theorem inDims_iff {s : Dims} {c : Dim → Int} : inDims s c = true ↔ InDims s c := by
  simp only [inDims, List.all_eq_true, Bool.and_eq_true, decide_eq_true_eq, InDims]
  constructor
  · intro h d n hm; exact h (d, n) hm
  · intro h p hp; exact h p.1 p.2 hp

/-! ### steps that modify an object -/

theorem write1_sizes {o o' : Obj U V} {v : View} {e} (h : o.write1 v e = .ok o') :
    o'.values.size = o.values.size ∧ o'.unit = o.unit ∧ o'.variances.isSome = o.variances.isSome := by
  simp only [Obj.write1] at h
  split at h
  · simp at h
  split at h
  · simp at h
  split at h
  · rename_i hv
    injection h with h; subst h; exact ⟨rfl, rfl, by simp [hv]⟩
  · split at h
    · simp at h
    · rename_i hv _
      injection h with h; subst h; exact ⟨rfl, rfl, by simp [hv]⟩

theorem write_sizes {v : View} : ∀ {l : List ((Dim → Int) × V × V)} {o o' : Obj U V}, o.write v l = .ok o' →
    o'.values.size = o.values.size ∧ o'.unit = o.unit ∧ o'.variances.isSome = o.variances.isSome
  | [], o, o', h => by simp only [Obj.write, Except.ok.injEq] at h; subst h; exact ⟨rfl, rfl, rfl⟩
  | e :: l, o, o', h => by
    simp only [Obj.write] at h
    split at h
    · simp at h
    rename_i o1 h1
    obtain ⟨a, b, c⟩ := write1_sizes h1
    obtain ⟨a', b', c'⟩ := write_sizes h
    exact ⟨a'.trans a, b'.trans b, c'.trans c⟩

theorem checkedWrite_ok {l : List ((Dim → Int) × V × V)} {o o' : Obj U V} {v : View}
    (h : Obj.checkedWrite l o v = .ok o') : v.readonly = false ∧ o.write v l = .ok o' := by
  simp only [Obj.checkedWrite, expectWritable] at h
  cases hr : v.readonly with
  | true => simp [hr] at h
  | false => simp only [hr, Bool.false_eq_true, if_false] at h; exact ⟨rfl, h⟩

theorem setUnit_ok [DecidableEq U] {o o' : Obj U V} {v : View} {u : U} (h : o.setUnit v u = .ok o') :
    v.readonly = false ∧ o' = { o with unit := u } ∧ (o.unit = u ∨ isSlice v o.values.size = false) := by
  simp only [Obj.setUnit, expectWritable] at h
  cases hr : v.readonly with
  | true => simp [hr] at h
  | false =>
    simp only [hr, Bool.false_eq_true, if_false] at h
    by_cases hc : o.unit ≠ u ∧ isSlice v o.values.size = true
    · rw [if_pos hc] at h; simp at h
    · rw [if_neg hc] at h
      injection h with h
      refine ⟨rfl, h.symm, ?_⟩
      by_cases hu : o.unit = u
      · exact .inl hu
      · right
        cases hs : isSlice v o.values.size with
        | false => rfl
        | true => exact absurd ⟨hu, hs⟩ hc

theorem setVariances_ok [DecidableEq U] {o o' : Obj U V} {v : View} {src : Option (Obj U V × View)}
    (h : o.setVariances v src = .ok o') :
    v.readonly = false ∧ isSlice v o.values.size = false ∧ o'.values = o.values ∧ o'.unit = o.unit ∧
    (match src with
      | none => o'.variances = none
      | some (s, w) => o'.variances = some s.values ∧ o.unit = s.unit ∧ v.dims = w.dims ∧ s.variances = none) := by
  simp only [Obj.setVariances, expectWritable] at h
  cases hr : v.readonly with
  | true => simp [hr] at h
  | false =>
    simp only [hr, Bool.false_eq_true, if_false] at h
    cases hs : isSlice v o.values.size with
    | true => simp [hs] at h
    | false =>
      simp only [hs, Bool.false_eq_true, if_false] at h
      cases src with
      | none => simp only [Except.ok.injEq] at h; subst h; exact ⟨rfl, rfl, rfl, rfl, rfl⟩
      | some p =>
        obtain ⟨s, w⟩ := p
        simp only at h
        by_cases h1 : o.unit ≠ s.unit
        · rw [if_pos h1] at h; simp at h
        rw [if_neg h1] at h
        by_cases h2 : Dims.eqDims v.dims w.dims = false
        · rw [if_pos h2] at h; simp at h
        rw [if_neg h2] at h
        by_cases h3 : s.variances.isSome = true
        · rw [if_pos h3] at h; simp at h
        rw [if_neg h3] at h
        simp only [Except.ok.injEq] at h
        subst h
        refine ⟨rfl, rfl, rfl, rfl, rfl, by simpa using h1, by simpa [Dims.eqDims] using h2, ?_⟩
        simpa using h3

theorem modify_ok {s s' : Heap U V} {i : Nat} {f} (h : s.modify i f = .ok s') :
    ∃ hd o o', s.vars[i]? = some hd ∧ s.objs[hd.obj]? = some o ∧ f o hd.view = .ok o' ∧
      s' = s.setObj hd.obj o' := by
  simp only [Heap.modify] at h
  split at h
  · simp at h
  rename_i hd hv
  split at h
  · simp at h
  rename_i o ho
  split at h
  · simp at h
  rename_i o' hf
  injection h with h
  exact ⟨hd, o, o', hv, ho, hf, h.symm⟩

theorem lookup_some {s : Heap U V} {i : Nat} {p} (h : s.lookup i = some p) :
    ∃ hd, s.vars[i]? = some hd ∧ s.objs[hd.obj]? = some p.1 ∧ hd.view = p.2 := by
  simp only [Heap.lookup] at h
  split at h
  · simp at h
  rename_i hd hv
  split at h
  · simp at h
  rename_i o ho
  injection h with h
  subst h
  exact ⟨hd, hv, ho, rfl⟩

theorem lookup_eq {s : Heap U V} {i : Nat} {hd : Handle} {o : Obj U V} (h1 : s.vars[i]? = some hd)
    (h2 : s.objs[hd.obj]? = some o) : s.lookup i = some (o, hd.view) := by
  simp only [Heap.lookup, h1, h2]

/-! ### shape of a step -/

/-- What a successful step does. -/
inductive StepShape (s : Heap U V) (op : HeapOp U V) (s' : Heap U V) : Prop
  | fresh (o : Obj U V) (v : View) : s' = s.addObj o v → StepShape s op s'
  | var (h : Handle) (v : View) : h ∈ s.vars → (h.view.readonly = true → v.readonly = true) →
      s' = s.addVar ⟨h.obj, v⟩ → StepShape s op s'
  | rebind (i : Nat) (h : Handle) : h ∈ s.vars → s' = { s with vars := s.vars.set i h } → StepShape s op s'
  | modify (i : Nat) (h : Handle) (o o' : Obj U V) : s.vars[i]? = some h → s.objs[h.obj]? = some o →
      h.view.readonly = false → o'.values.size = o.values.size → s' = s.setObj h.obj o' → StepShape s op s'

theorem slice_readonly {v v' : View} {p : Slice} (h : v.slice p = .ok v') : v'.readonly = v.readonly := by
  simp only [View.slice, bind, Except.bind] at h
  split at h
  · simp at h
  split at h
  · injection h with h; rw [h]
  split at h
  · simp at h
  split at h
  · split at h
    · simp at h
    · injection h with h; rw [← h]
  · split at h
    · simp at h
    · injection h with h; rw [← h]

theorem foldSlice_readonly : ∀ {ds : List Dim} {v v' : View},
    ds.foldlM (fun v d => View.slice v ⟨d, 0, -1, 1⟩) v = Except.ok v' → v'.readonly = v.readonly
  | [], v, v', h => by simp only [List.foldlM_nil, pure, Except.pure, Except.ok.injEq] at h; rw [h]
  | d :: ds, v, v', h => by
    simp only [List.foldlM_cons, bind, Except.bind] at h
    split at h
    · simp at h
    rename_i v1 h1
    rw [foldSlice_readonly h, slice_readonly h1]

theorem apply_readonly {op : ViewOp} {v v' : View} (h : op.apply v = .ok v') (hr : v.readonly = true) :
    v'.readonly = true := by
  cases op with
  | same => simp only [ViewOp.apply, Except.ok.injEq] at h; rw [← h]; exact hr
  | slice p => simp only [ViewOp.apply] at h; rw [slice_readonly h]; exact hr
  | transpose o =>
    simp only [ViewOp.apply, View.transpose, bind, Except.bind] at h
    split at h
    · simp at h
    split at h
    · simp at h
    injection h with h; rw [← h]; exact hr
  | broadcast t =>
    simp only [ViewOp.apply, View.broadcast, bind, Except.bind] at h
    split at h
    · simp at h
    split at h
    · simp at h
    injection h with h; rw [← h]; simp [hr]
  | fold d t =>
    simp only [ViewOp.apply, View.fold, bind, Except.bind] at h
    split at h
    · simp at h
    injection h with h; rw [← h]; exact hr
  | rename ns b =>
    simp only [ViewOp.apply, View.renameDims, bind, Except.bind] at h
    split at h
    · simp at h
    injection h with h; rw [← h]; exact hr
  | squeeze sel =>
    simp only [ViewOp.apply, View.squeeze, bind, Except.bind] at h
    split at h
    · simp at h
    rw [foldSlice_readonly h]; exact hr
  | asConst => simp only [ViewOp.apply, Except.ok.injEq] at h; rw [← h]; rfl

theorem flattenLoop_readonly {to_ : Nat} {td : Dim} : ∀ {ls : List Dim} {size : Int} {v v' : View},
    flattenLoop to_ td ls size v = .ok (some v') → v'.readonly = v.readonly
  | [], _, v, v', h => by
    simp only [flattenLoop, Except.ok.injEq, Option.some.injEq] at h; rw [h]
  | [l], _, v, v', h => by
    simp only [flattenLoop, bind, Except.bind] at h
    split at h
    · simp at h
    split at h
    · simp at h
    simp only [Except.ok.injEq, Option.some.injEq] at h
    rw [← h]
  | l :: l' :: ls, _, v, v', h => by
    simp only [flattenLoop, bind, Except.bind] at h
    split at h
    · simp at h
    split at h
    · simp at h
    rw [flattenLoop_readonly h]

theorem flatten_readonly {v v' : View} {ls : List Dim} {d : Dim} (h : v.flatten? ls d = .ok (some v')) :
    v'.readonly = v.readonly := by
  simp only [View.flatten?] at h
  split at h
  · simp only [bind, Except.bind] at h
    split at h
    · simp at h
    simp only [Except.ok.injEq, Option.some.injEq] at h
    rw [← h]
  · split at h
    · simp at h
    · exact flattenLoop_readonly h

theorem exec_shape [DecidableEq U] {s s' : Heap U V} {op : HeapOp U V} (h : s.exec op = .ok s') :
    StepShape s op s' := by
  cases op with
  | new dims u vals vars => simp only [Heap.exec, Except.ok.injEq] at h; exact .fresh _ _ h.symm
  | derive i op =>
    simp only [Heap.exec] at h
    split at h
    · simp at h
    rename_i hd hv
    split at h
    · simp at h
    rename_i v happ
    injection h with h
    exact .var hd v (List.mem_of_getElem? hv) (apply_readonly happ) h.symm
  | flatten i ls d =>
    simp only [Heap.exec] at h
    split at h
    · simp at h
    rename_i hd hv
    split at h
    · simp at h
    · rename_i v happ
      injection h with h
      exact .var hd v (List.mem_of_getElem? hv) (fun hr => by rw [flatten_readonly happ]; exact hr) h.symm
    · split at h
      · simp at h
      split at h
      · injection h with h; exact .fresh _ _ h.symm
      · simp at h
      · simp at h
  | deepCopy i =>
    simp only [Heap.exec] at h
    split at h
    · simp at h
    injection h with h
    exact .fresh _ _ h.symm
  | assign i j =>
    simp only [Heap.exec] at h
    split at h
    · simp at h
    rename_i hd hv
    split at h
    · injection h with h; exact .rebind i hd (List.mem_of_getElem? hv) h.symm
    · simp at h
  | write i l =>
    obtain ⟨hd, o, o', h1, h2, h3, h4⟩ := modify_ok h
    obtain ⟨hr, hw⟩ := checkedWrite_ok h3
    exact .modify i hd o o' h1 h2 hr (write_sizes hw).1 h4
  | setUnit i u =>
    simp only [Heap.exec] at h
    obtain ⟨hd, o, o', h1, h2, h3, h4⟩ := modify_ok h
    obtain ⟨hr, hw, _⟩ := setUnit_ok h3
    exact .modify i hd o o' h1 h2 hr (by rw [hw]) h4
  | setVariances i j =>
    cases j with
    | none =>
      simp only [Heap.exec] at h
      obtain ⟨hd, o, o', h1, h2, h3, h4⟩ := modify_ok h
      obtain ⟨hr, _, hv, _⟩ := setVariances_ok h3
      exact .modify i hd o o' h1 h2 hr (by rw [hv]) h4
    | some j =>
      simp only [Heap.exec] at h
      split at h
      · simp at h
      obtain ⟨hd, o, o', h1, h2, h3, h4⟩ := modify_ok h
      obtain ⟨hr, _, hv, _⟩ := setVariances_ok h3
      exact .modify i hd o o' h1 h2 hr (by rw [hv]) h4

/-! ### invariant -/

/-- Arguments as the C++ types guarantee them. -/
def HeapOp.Proper : HeapOp U V → Prop
  | .new dims _ _ _ => Sizes.WF dims
  | .derive _ op => op.Proper
  | _ => True

/-- Every variable refers to an existing object, by a view derived from the whole of it. -/
def Heap.Ok (s : Heap U V) : Prop :=
  ∀ h ∈ s.vars, ∃ o, s.objs[h.obj]? = some o ∧ ViewOf o.values.size h.view

theorem apply_viewOf {n : Int} {op : ViewOp} {v v' : View} (hp : op.Proper) (hv : ViewOf n v)
    (h : op.apply v = .ok v') : ViewOf n v' := by
  cases op with
  | same => simp only [ViewOp.apply, Except.ok.injEq] at h; rw [← h]; exact hv
  | slice p =>
    rcases hp with rfl | hp
    · exact .noSlice hv h
    · exact .slice hv hp h
  | transpose o => exact .transpose hv h
  | broadcast t => exact .broadcast hv hp h
  | fold d t => exact .fold hv h
  | rename ns b => exact .rename hv h
  | squeeze sel => exact .squeeze hv h
  | asConst => simp only [ViewOp.apply, Except.ok.injEq] at h; rw [← h]; exact .asConst hv

theorem Ok.addVar {s : Heap U V} (hs : s.Ok) {h : Handle} {v : View} {o : Obj U V}
    (ho : s.objs[h.obj]? = some o) (hv : ViewOf o.values.size v) : (s.addVar ⟨h.obj, v⟩).Ok := by
  intro h' hm
  simp only [Heap.addVar, List.mem_append, List.mem_singleton] at hm
  rcases hm with hm | rfl
  · exact hs h' hm
  · exact ⟨o, ho, hv⟩

theorem Ok.addObj {s : Heap U V} (hs : s.Ok) {v : View} {o : Obj U V}
    (hv : ViewOf o.values.size v) : (s.addObj o v).Ok := by
  intro h' hm
  simp only [Heap.addObj, List.mem_append, List.mem_singleton] at hm
  rcases hm with hm | rfl
  · obtain ⟨o', ho', hv'⟩ := hs h' hm
    refine ⟨o', ?_, hv'⟩
    simp only [Heap.addObj]
    rw [List.getElem?_append_left]
    · exact ho'
    · exact (List.getElem?_eq_some_iff.1 ho').1
  · exact ⟨o, by simp [Heap.addObj], hv⟩

theorem Ok.setObj {s : Heap U V} (hs : s.Ok) {k : Nat} {o o' : Obj U V} (ho : s.objs[k]? = some o)
    (hz : o'.values.size = o.values.size) : (s.setObj k o').Ok := by
  intro h' hm
  obtain ⟨o1, ho1, hv1⟩ := hs h' hm
  simp only [Heap.setObj]
  by_cases he : h'.obj = k
  · subst he
    rw [ho] at ho1
    injection ho1 with ho1
    subst ho1
    refine ⟨o', ?_, hz ▸ hv1⟩
    rw [List.getElem?_set_self]
    exact (List.getElem?_eq_some_iff.1 ho).1
  · exact ⟨o1, by rw [List.getElem?_set_ne (Ne.symm he)]; exact ho1, hv1⟩

theorem exec_ok [DecidableEq U] {s s' : Heap U V} {op : HeapOp U V} (hs : s.Ok) (hp : op.Proper)
    (h : s.exec op = .ok s') : s'.Ok := by
  cases op with
  | new dims u vals vars =>
    simp only [Heap.exec, Except.ok.injEq] at h
    rw [← h]
    exact Ok.addObj hs (.fresh hp rfl)
  | derive i op =>
    simp only [Heap.exec] at h
    split at h
    · simp at h
    rename_i hd hv
    split at h
    · simp at h
    rename_i v happ
    injection h with h
    rw [← h]
    obtain ⟨o, ho, hvo⟩ := hs hd (List.mem_of_getElem? hv)
    exact Ok.addVar hs ho (apply_viewOf hp hvo happ)
  | flatten i ls d =>
    simp only [Heap.exec] at h
    split at h
    · simp at h
    rename_i hd hv
    obtain ⟨o, ho, hvo⟩ := hs hd (List.mem_of_getElem? hv)
    split at h
    · simp at h
    · rename_i v happ
      injection h with h
      rw [← h]
      exact Ok.addVar hs ho (.flatten hvo happ)
    · split at h
      · simp at h
      rename_i o1 ho1
      split at h
      · rename_i v happ
        injection h with h
        rw [← h]
        exact Ok.addObj hs (.flatten (.fresh (viewOf_WF hvo).1 rfl) happ)
      · simp at h
      · simp at h
  | deepCopy i =>
    simp only [Heap.exec] at h
    split at h
    · simp at h
    rename_i o v hl
    injection h with h
    rw [← h]
    obtain ⟨hd, h1, h2, h3⟩ := lookup_some hl
    obtain ⟨o', ho', hvo⟩ := hs hd (List.mem_of_getElem? h1)
    simp only at h3
    rw [h3] at hvo
    exact Ok.addObj hs (.fresh (viewOf_WF hvo).1 rfl)
  | assign i j =>
    simp only [Heap.exec] at h
    split at h
    · simp at h
    rename_i hd hv
    split at h
    · injection h with h
      rw [← h]
      intro h' hm
      rcases List.mem_or_eq_of_mem_set hm with hm | rfl
      · exact hs h' hm
      · exact hs h' (List.mem_of_getElem? hv)
    · simp at h
  | write i l =>
    obtain ⟨hd, o, o', h1, h2, h3, h4⟩ := modify_ok h
    obtain ⟨hr, hw⟩ := checkedWrite_ok h3
    rw [h4]
    exact Ok.setObj hs h2 (write_sizes hw).1
  | setUnit i u =>
    simp only [Heap.exec] at h
    obtain ⟨hd, o, o', h1, h2, h3, h4⟩ := modify_ok h
    obtain ⟨hr, hw, _⟩ := setUnit_ok h3
    rw [h4]
    exact Ok.setObj hs h2 (by rw [hw])
  | setVariances i j =>
    cases j with
    | none =>
      simp only [Heap.exec] at h
      obtain ⟨hd, o, o', h1, h2, h3, h4⟩ := modify_ok h
      obtain ⟨hr, _, hv, _⟩ := setVariances_ok h3
      rw [h4]
      exact Ok.setObj hs h2 (by rw [hv])
    | some j =>
      simp only [Heap.exec] at h
      split at h
      · simp at h
      obtain ⟨hd, o, o', h1, h2, h3, h4⟩ := modify_ok h
      obtain ⟨hr, _, hv, _⟩ := setVariances_ok h3
      rw [h4]
      exact Ok.setObj hs h2 (by rw [hv])

theorem step_ok [DecidableEq U] {s : Heap U V} {op : HeapOp U V} (hs : s.Ok) (hp : op.Proper) : (s.step op).Ok := by
  simp only [Heap.step]
  cases h : s.exec op with
  | error e => exact hs
  | ok s' => exact exec_ok hs hp h

theorem run_ok [DecidableEq U] {ops : List (HeapOp U V)} : ∀ {s : Heap U V}, s.Ok → (∀ op ∈ ops, op.Proper) → (s.run ops).Ok := by
  induction ops with
  | nil => intro s hs _; exact hs
  | cons op ops ih =>
    intro s hs hp
    exact ih (step_ok hs (hp op (by simp))) (fun o ho => hp o (List.mem_cons_of_mem _ ho))

/-! ### coverage -/

/-- Number of addresses of a view without shared elements. -/
theorem covers_of_volume {n : Int} {v : View} (hw : v.WF) (hb : v.InBounds n) (hd : v.Distinct)
    (hv : Dims.volume v.dims = n) (a : Int) (h0 : 0 ≤ a) (h1 : a < n) : ∃ c, InDims v.dims c ∧ v.addr c = a := by
  have hinj : Set.InjOn (fun k => v.addr (coordsOf v.dims k)) (Finset.Ico (0 : Int) n : Set Int) := by
    intro k hk k' hk' he
    simp only [Finset.coe_Ico, Set.mem_Ico] at hk hk'
    have := hd _ _ (coordsOf_inDims hw.1 hk.1 (hv ▸ hk.2)) (coordsOf_inDims hw.1 hk'.1 (hv ▸ hk'.2)) he
    rw [← position_coordsOf hw.1 hk.1 (hv ▸ hk.2), ← position_coordsOf hw.1 hk'.1 (hv ▸ hk'.2)]
    exact position_congr this
  have hmaps : Set.MapsTo (fun k => v.addr (coordsOf v.dims k)) (Finset.Ico (0 : Int) n : Set Int)
      (Finset.Ico (0 : Int) n : Set Int) := by
    intro k hk
    simp only [Finset.coe_Ico, Set.mem_Ico] at hk ⊢
    exact hb _ (coordsOf_inDims hw.1 hk.1 (hv ▸ hk.2))
  have hsurj := Finset.surjOn_of_injOn_of_card_le _ hmaps hinj (le_refl _)
  obtain ⟨k, hk, he⟩ := hsurj (by simpa using ⟨h0, h1⟩ : a ∈ (Finset.Ico (0 : Int) n : Set Int))
  simp only [Finset.coe_Ico, Set.mem_Ico] at hk
  exact ⟨_, coordsOf_inDims hw.1 hk.1 (hv ▸ hk.2), he⟩

theorem addrAux_nonneg : ∀ {s : Dims} {st : List Int} {c : Dim → Int}, (∀ x ∈ st, 0 ≤ x) → InDims s c → 0 ≤ addrAux s st c
  | [], _, _, _, _ => by simp
  | _ :: _, [], _, _, _ => by simp [addrAux]
  | p :: s, x :: st, c, hs, hc => by
    rw [addrAux_cons]
    have := addrAux_nonneg (fun y hy => hs y (List.mem_cons_of_mem _ hy)) hc.tail
    have := mul_nonneg hc.head.1 (hs x (by simp))
    omega

theorem volume_of_covers {n : Int} {v : View} (hw : v.WF) (hb : v.InBounds n) (hd : v.Distinct) (hn : 0 < n)
    (hcov : ∀ a, 0 ≤ a → a < n → ∃ c, InDims v.dims c ∧ v.addr c = a) :
    v.offset = 0 ∧ Dims.volume v.dims = n := by
  have hvol : 0 ≤ Dims.volume v.dims := volume_nonneg hw.1.2
  constructor
  · obtain ⟨c, hc, he⟩ := hcov 0 (le_refl _) hn
    have h1 := addrAux_nonneg hw.2.2 hc
    have hz : InDims v.dims (fun _ => 0) := fun d m hm => ⟨le_refl _, by have := hc d m hm; show (0 : Int) < m; omega⟩
    have h2 := (hb _ hz).1
    have h3 : addrAux v.dims v.strides (fun _ => 0) = 0 := by
      have : ∀ (s : Dims) (st : List Int), addrAux s st (fun _ => 0) = 0 := by
        intro s
        induction s with
        | nil => intro st; simp
        | cons p s ih => intro st; cases st with
          | nil => simp [addrAux]
          | cons x st => rw [addrAux_cons, ih]; simp
      exact this _ _
    simp only [View.addr] at he h2
    omega
  · have hcard : (Finset.Ico (0 : Int) (Dims.volume v.dims)).card = (Finset.Ico (0 : Int) n).card := by
      apply Finset.card_bij (fun k _ => v.addr (coordsOf v.dims k))
      · intro k hk
        rw [Finset.mem_Ico] at hk ⊢
        exact hb _ (coordsOf_inDims hw.1 hk.1 hk.2)
      · intro k hk k' hk' he
        rw [Finset.mem_Ico] at hk hk'
        have := hd _ _ (coordsOf_inDims hw.1 hk.1 hk.2) (coordsOf_inDims hw.1 hk'.1 hk'.2) he
        rw [← position_coordsOf hw.1 hk.1 hk.2, ← position_coordsOf hw.1 hk'.1 hk'.2]
        exact position_congr this
      · intro a ha
        rw [Finset.mem_Ico] at ha
        obtain ⟨c, hc, he⟩ := hcov a ha.1 ha.2
        have hp := position_bounds hc
        refine ⟨position v.dims c, by rw [Finset.mem_Ico]; exact hp, ?_⟩
        rw [← he]
        simp only [View.addr]
        rw [addrAux_congr (fun d hdm => coordsOf_position hw.1.1 hc d hdm)]
    simp only [Int.card_Ico, Int.sub_zero] at hcard
    omega

end Scipp
