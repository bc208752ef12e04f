import Verif.Model.NanToNum
import Verif.Lemmas.Heap
import Verif.Lemmas.View2
/-
Lemmas about writing all elements of a view, and about one replacement.
-/
namespace Scipp.NanToNum

open Special Sizes

variable {U : Type}

theorem write1_eq {o o' : Obj U Ext} {v : View} {e : (Dim → Int) × Ext × Ext} (h : o.write1 v e = .ok o') :
    o'.values.at_ (v.addr e.1) = e.2.1 ∧
    (o.variances.isSome = true → varianceAt o' (v.addr e.1) = e.2.2) ∧
    (∀ a, a ≠ v.addr e.1 → o'.values.at_ a = o.values.at_ a ∧ varianceAt o' a = varianceAt o a) ∧
    (∀ b, o.variances = some b → ∃ b', o'.variances = some b' ∧ b'.size = b.size) := by
  simp only [Obj.write1] at h
  split at h
  · simp at h
  split at h
  · simp at h
  cases hv : o.variances with
  | none =>
    simp only [hv] at h
    injection h with h
    subst h
    simp [Buffer.set, varianceAt, Function.update_apply, hv]
    intro a ha; simp [ha]
  | some b =>
    simp only [hv] at h
    split at h
    · simp at h
    injection h with h
    subst h
    simp [Buffer.set, varianceAt, Function.update_apply, hv]
    intro a ha; simp [ha]

theorem write_frame {v : View} : ∀ (l : List ((Dim → Int) × Ext × Ext)) {o o' : Obj U Ext}, o.write v l = .ok o' →
    (∀ a, (∀ e ∈ l, a ≠ v.addr e.1) → o'.values.at_ a = o.values.at_ a ∧ varianceAt o' a = varianceAt o a) ∧
    (∀ b, o.variances = some b → ∃ b', o'.variances = some b' ∧ b'.size = b.size)
  | [], o, o', h => by
    simp only [Obj.write, Except.ok.injEq] at h
    subst h
    exact ⟨fun _ _ => ⟨rfl, rfl⟩, fun b hb => ⟨b, hb, rfl⟩⟩
  | e :: l, o, o', h => by
    simp only [Obj.write] at h
    split at h
    · simp at h
    rename_i o1 h1
    obtain ⟨-, -, f1, g1⟩ := write1_eq h1
    obtain ⟨f2, g2⟩ := write_frame l h
    refine ⟨fun a ha => ?_, fun b hb => ?_⟩
    · obtain ⟨p, q⟩ := f2 a (fun e' he' => ha e' (List.mem_cons_of_mem _ he'))
      obtain ⟨p', q'⟩ := f1 a (ha e (by simp))
      exact ⟨p.trans p', q.trans q'⟩
    · obtain ⟨b1, hb1, hs1⟩ := g1 b hb
      obtain ⟨b2, hb2, hs2⟩ := g2 b1 hb1
      exact ⟨b2, hb2, hs2.trans hs1⟩

theorem write_all {v : View} : ∀ (l : List ((Dim → Int) × Ext × Ext)) {o o' : Obj U Ext}, o.write v l = .ok o' →
    l.Pairwise (fun e e' => v.addr e.1 ≠ v.addr e'.1) → ∀ e ∈ l,
    o'.values.at_ (v.addr e.1) = e.2.1 ∧ (o.variances.isSome = true → varianceAt o' (v.addr e.1) = e.2.2)
  | [], _, _, _, _, e, he => by simp at he
  | e :: l, o, o', h, hp, e', he' => by
    simp only [Obj.write] at h
    split at h
    · simp at h
    rename_i o1 h1
    obtain ⟨p, q, -, g⟩ := write1_eq h1
    rw [List.pairwise_cons] at hp
    rcases List.mem_cons.1 he' with rfl | he'
    · obtain ⟨f, -⟩ := write_frame l h
      obtain ⟨p', q'⟩ := f (v.addr e'.1) hp.1
      exact ⟨p'.trans p, fun hv => q'.trans (q hv)⟩
    · obtain ⟨p', q'⟩ := write_all l h hp.2 e' he'
      refine ⟨p', fun hv => q' ?_⟩
      obtain ⟨b, hb⟩ := Option.isSome_iff_exists.1 hv
      obtain ⟨b', hb', -⟩ := g b hb
      rw [hb']; rfl

theorem inDims_of_includes {t s : Dims} (ht : WF t) (hs : WF s) (h : includes t s = true) {c : Dim → Int}
    (hc : InDims t c) : InDims s c :=
  fun d n hm => hc d n ((includes_iff ht.1 hs.1).1 h (d, n) hm)

/-- Every position of the dims is among the elements written. -/
theorem newElems_mem {test : Ext → Bool} {ox orep : Obj U Ext} {vx vrep : View} {dims : Dims} (hw : WF dims)
    (hx : ∀ p ∈ vx.dims, p ∈ dims) (hr : ∀ p ∈ vrep.dims, p ∈ dims) {c : Dim → Int} (hc : InDims dims c) :
    ∃ c', (∀ d ∈ labels dims, c' d = c d) ∧
      (if test (ox.values.at_ (vx.addr c)) then
        (c', orep.values.at_ (vrep.addr c), varianceAt orep (vrep.addr c))
      else (c', ox.values.at_ (vx.addr c), varianceAt ox (vx.addr c))) ∈
      newElems test ox vx orep vrep dims := by
  refine ⟨coordsOf dims (position dims c), coordsOf_position hw.1 hc, ?_⟩
  obtain ⟨h0, h1⟩ := position_bounds hc
  have e1 : ∀ (v : View), (∀ p ∈ v.dims, p ∈ dims) → v.addr (coordsOf dims (position dims c)) = v.addr c := by
    intro v hv
    simp only [View.addr]
    congr 1
    apply addrAux_congr
    intro d hd
    obtain ⟨p, hp, rfl⟩ := List.mem_map.1 hd
    exact coordsOf_position hw.1 hc _ (List.mem_map.2 ⟨p, hv p hp, rfl⟩)
  refine List.mem_map.2 ⟨(position dims c).toNat, List.mem_range.2 (by omega), ?_⟩
  simp only [Int.toNat_of_nonneg h0, e1 vx hx, e1 vrep hr]

theorem newElems_distinct {test : Ext → Bool} {ox orep : Obj U Ext} {vx vrep v : View} (hw : v.WF)
    (hd : v.Distinct) :
    (newElems test ox vx orep vrep v.dims).Pairwise (fun e e' => v.addr e.1 ≠ v.addr e'.1) := by
  unfold newElems
  rw [List.pairwise_map]
  refine List.Pairwise.imp_of_mem ?_ List.pairwise_lt_range
  intro a b ha hb hab
  rw [List.mem_range] at ha hb
  have e : ∀ k : Nat, (if test (ox.values.at_ (vx.addr (coordsOf v.dims (k : Int)))) = true then
      (coordsOf v.dims (k : Int), orep.values.at_ (vrep.addr (coordsOf v.dims (k : Int))),
        varianceAt orep (vrep.addr (coordsOf v.dims (k : Int))))
      else (coordsOf v.dims (k : Int), ox.values.at_ (vx.addr (coordsOf v.dims (k : Int))),
        varianceAt ox (vx.addr (coordsOf v.dims (k : Int))))).1 = coordsOf v.dims (k : Int) := by
    intro k; split <;> rfl
  simp only [e]
  intro h
  have hA := coordsOf_inDims hw.1 (k := a) (by omega) (by omega)
  have hB := coordsOf_inDims hw.1 (k := b) (by omega) (by omega)
  have := position_congr (hd _ _ hA hB h)
  rw [position_coordsOf hw.1 (by omega) (by omega), position_coordsOf hw.1 (by omega) (by omega)] at this
  omega

theorem value_eq {s : Heap U Ext} {i : Nat} {h : Handle} {o : Obj U Ext} (hv : s.vars[i]? = some h)
    (ho : s.objs[h.obj]? = some o) {c : Dim → Int} (hb : 0 ≤ h.view.addr c ∧ h.view.addr c < o.values.size) :
    s.value i c = .ok (o.values.at_ (h.view.addr c)) := by
  simp only [Heap.value, lookup_eq hv ho]
  rw [if_neg (by omega)]

/-- Objects whose variances have as many elements as the values, as the constructor and
`setVariances` guarantee. -/
def Balanced (s : Heap U Ext) : Prop :=
  ∀ o ∈ s.objs, ∀ b, o.variances = some b → b.size = o.values.size

theorem variance_eq {s : Heap U Ext} (hbal : Balanced s) {i : Nat} {h : Handle} {o : Obj U Ext}
    (hv : s.vars[i]? = some h) (ho : s.objs[h.obj]? = some o) {c : Dim → Int}
    (hb : 0 ≤ h.view.addr c ∧ h.view.addr c < o.values.size) :
    s.variance i c = if o.variances.isSome then .ok (varianceAt o (h.view.addr c)) else .error .variances := by
  simp only [Heap.variance, lookup_eq hv ho]
  cases hx : o.variances with
  | none => simp
  | some b =>
    have := hbal o (List.mem_of_getElem? ho) b hx
    simp only [varianceAt, hx, Option.isSome_some, if_true]
    rw [if_neg (by omega)]

/-- What one replacement does. -/
theorem replaceInto_spec [DecidableEq U] {test : Ext → Bool} {s s' : Heap U Ext} {x rep out : Nat} (hs : s.Ok)
    (hbal : Balanced s) (h : replaceInto test s x rep out = .ok s') :
    ∃ hx hr ho : Handle, s.vars[x]? = some hx ∧ s.vars[rep]? = some hr ∧ s.vars[out]? = some ho ∧
      s'.vars = s.vars ∧ s'.Ok ∧ Balanced s' ∧ s'.objs.length = s.objs.length ∧
      (∀ k, k ≠ ho.obj → s'.objs[k]? = s.objs[k]?) ∧
      (s.unit x = s.unit rep ∧ s'.unit out = s.unit x) ∧
      ∀ c, InDims ho.view.dims c → ∃ v, s.value x c = .ok v ∧
        s'.value out c = s.value (if test v then rep else x) c ∧
        s'.variance out c = s.variance (if test v then rep else x) c := by
  simp only [replaceInto] at h
  split at h
  swap
  · simp at h
  rename_i hx hr ho ex er eo
  split at h
  swap
  · simp at h
  rename_i ox orep oo eox eor eoo
  split at h
  · simp at h
  rename_i hinc
  split at h
  · simp at h
  rename_i hunit
  split at h
  · simp at h
  split at h
  · simp at h
  split at h
  · simp at h
  rename_i hvar
  split at h
  · simp at h
  cases hw : s.exec (.write out (newElems test ox hx.view orep hr.view ho.view.dims)) with
  | error e => simp [hw] at h
  | ok s1 =>
  simp only [hw] at h
  have hs1 : s1.Ok := exec_ok (op := .write _ _) hs trivial hw
  have hs2 : s'.Ok := exec_ok (op := .setUnit _ _) hs1 trivial h
  simp only [Heap.exec] at hw h
  obtain ⟨hd1, o1, o1', a1, a2, a3, a4⟩ := modify_ok hw
  rw [eo] at a1; injection a1 with a1; subst a1
  rw [eoo] at a2; injection a2 with a2; subst a2
  obtain ⟨hro, hwr⟩ := checkedWrite_ok a3
  obtain ⟨hd2, o2, o2', b1, b2, b3, b4⟩ := modify_ok h
  have hlt : ho.obj < s.objs.length := (List.getElem?_eq_some_iff.1 eoo).1
  have ev1 : s1.vars = s.vars := by rw [a4]; rfl
  rw [ev1, eo] at b1; injection b1 with b1; subst b1
  have eo1 : s1.objs[ho.obj]? = some o1' := by
    rw [a4]; simp only [Heap.setObj]; rw [List.getElem?_set_self hlt]
  rw [eo1] at b2; injection b2 with b2; subst b2
  obtain ⟨-, b3, -⟩ := setUnit_ok b3
  have ev : s'.vars = s.vars := by rw [b4]; exact ev1
  have eo2 : s'.objs[ho.obj]? = some o2' := by
    rw [b4]; simp only [Heap.setObj]; rw [List.getElem?_set_self (by rw [a4]; simpa [Heap.setObj] using hlt)]
  obtain ⟨sz, su, sv⟩ := write_sizes hwr
  have other : ∀ k, k ≠ ho.obj → s'.objs[k]? = s.objs[k]? := by
    intro k hk
    rw [b4, a4]
    simp only [Heap.setObj]
    rw [List.getElem?_set_ne (Ne.symm hk), List.getElem?_set_ne (Ne.symm hk)]
  obtain ⟨wf, wg⟩ := write_frame _ hwr
  have hbal' : Balanced s' := by
    intro o hm b hb
    obtain ⟨k, hk⟩ := List.mem_iff_getElem?.1 hm
    by_cases hko : k = ho.obj
    · subst hko
      rw [eo2] at hk; injection hk with hk; subst hk
      rw [b3] at hb ⊢
      have : oo.variances.isSome = true := by rw [← sv, hb]; rfl
      obtain ⟨b0, hb0⟩ := Option.isSome_iff_exists.1 this
      obtain ⟨b', hb', hz⟩ := wg b0 hb0
      have := hbal _ (List.mem_of_getElem? eoo) b0 hb0
      simp only at hb ⊢
      rw [hb'] at hb; injection hb with hb; subst hb
      omega
    · rw [other k hko] at hk
      exact hbal o (List.mem_of_getElem? hk) b hb
  obtain ⟨_, g1, g2⟩ := hs ho (List.mem_of_getElem? eo)
  rw [eoo] at g1; injection g1 with g1; subst g1
  obtain ⟨_, gx1, gx2⟩ := hs hx (List.mem_of_getElem? ex)
  rw [eox] at gx1; injection gx1 with gx1; subst gx1
  obtain ⟨_, gr1, gr2⟩ := hs hr (List.mem_of_getElem? er)
  rw [eor] at gr1; injection gr1 with gr1; subst gr1
  have go := Props.viewOf_good g2
  have gx := Props.viewOf_good gx2
  have gr := Props.viewOf_good gr2
  simp only [Bool.and_eq_false_iff, not_or, Bool.not_eq_false] at hinc hvar
  have ix := (includes_iff go.1.1.1 gx.1.1.1).1 hinc.1
  have ir := (includes_iff go.1.1.1 gr.1.1.1).1 hinc.2
  refine ⟨hx, hr, ho, ex, er, eo, ev, hs2, hbal', ?_, other, ⟨?_, ?_⟩, ?_⟩
  · rw [b4, a4]; simp [Heap.setObj]
  · simp only [Heap.unit, lookup_eq ex eox, lookup_eq er eor]
    exact congrArg _ (not_not.1 hunit)
  · have : s'.vars[out]? = some ho := by rw [ev]; exact eo
    simp only [Heap.unit, lookup_eq this eo2, lookup_eq ex eox, b3]
  · intro c hc
    have bo := go.2.1 c hc
    have bx := gx.2.1 c (inDims_of_includes go.1.1 gx.1.1 hinc.1 hc)
    have br := gr.2.1 c (inDims_of_includes go.1.1 gr.1.1 hinc.2 hc)
    refine ⟨_, value_eq ex eox bx, ?_⟩
    have evo : s'.vars[out]? = some ho := by rw [ev]; exact eo
    have hz : o2'.values.size = oo.values.size := by rw [b3]; exact sz
    rw [value_eq evo eo2 (by rw [hz]; exact bo), variance_eq hbal' evo eo2 (by rw [hz]; exact bo)]
    obtain ⟨c', hc', hm⟩ := newElems_mem (test := test) (ox := ox) (orep := orep) go.1.1 ix ir hc
    have haddr : ho.view.addr c' = ho.view.addr c := by
      simp only [View.addr]; congr 1; exact addrAux_congr hc'
    have hall := write_all _ hwr (newElems_distinct go.1 (go.2.2 hro)) _ hm
    have hvs : o2'.variances.isSome = oo.variances.isSome := by rw [b3]; exact sv
    have hva : varianceAt o2' (ho.view.addr c) = varianceAt o1' (ho.view.addr c) := by rw [b3]; rfl
    have hvl : o2'.values.at_ (ho.view.addr c) = o1'.values.at_ (ho.view.addr c) := by rw [b3]
    rw [hvs, hva, hvl]
    have v1 : ox.variances.isSome = oo.variances.isSome := by simpa using hvar.1
    have v2 : orep.variances.isSome = oo.variances.isSome := by simpa using hvar.2
    by_cases ht : test (ox.values.at_ (hx.view.addr c)) = true
    · simp only [ht, if_true] at hall ⊢
      rw [haddr] at hall
      rw [value_eq er eor br, variance_eq hbal er eor br, hall.1, v2]
      refine ⟨rfl, ?_⟩
      by_cases hv : oo.variances.isSome = true
      · rw [if_pos hv, if_pos hv, hall.2 hv]
      · rw [if_neg hv, if_neg hv]
    · simp only [ht, Bool.false_eq_true, if_false] at hall ⊢
      rw [haddr] at hall
      rw [value_eq ex eox bx, variance_eq hbal ex eox bx, hall.1, v1]
      refine ⟨rfl, ?_⟩
      by_cases hv : oo.variances.isSome = true
      · rw [if_pos hv, if_pos hv, hall.2 hv]
      · rw [if_neg hv, if_neg hv]

/-- Variables of other objects are not affected. -/
theorem value_frame {s s' : Heap U Ext} (hv : s'.vars = s.vars) {k : Nat}
    (hf : ∀ j, j ≠ k → s'.objs[j]? = s.objs[j]?) {i : Nat} {h : Handle} (hi : s.vars[i]? = some h)
    (hk : h.obj ≠ k) (c : Dim → Int) :
    s'.value i c = s.value i c ∧ s'.variance i c = s.variance i c ∧ s'.unit i = s.unit i := by
  have : s'.lookup i = s.lookup i := by
    simp only [Heap.lookup, hv, hi, hf _ hk]
  simp only [Heap.value, Heap.variance, Heap.unit, this]
  simp

end Scipp.NanToNum
