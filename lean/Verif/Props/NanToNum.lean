import Verif.Lemmas.NanToNum
/-
C71: `nan_to_num` replaces NaN and infinities, in its result only.
-/
namespace Scipp.Props

open Scipp Sizes Special NanToNum

variable {U : Type} [DecidableEq U]

/-- The variable an element of the result of `nan_to_num` has to come from: the given replacement for
the kind of special value, otherwise the input. -/
def sourceOf (s : Heap U Ext) (x : Nat) (nan posinf neginf : Option Nat) (c : Dim → Int) : Nat :=
  match s.value x c with
  | .ok .nan => nan.getD x
  | .ok .pinf => posinf.getD x
  | .ok .ninf => neginf.getD x
  | _ => x

/-- Replacements refer to another buffer than variable `out`. -/
def Separate (s : Heap U Ext) (out : Nat) (rep : Option Nat) : Prop :=
  ∀ r, rep = some r → ∃ hr ho, s.vars[r]? = some hr ∧ s.vars[out]? = some ho ∧ hr.obj ≠ ho.obj

/-- Effect of one statement `if (nan) nan_to_num(x, *nan, out)`. -/
theorem ifGiven_spec {test : Ext → Bool} {s s' : Heap U Ext} {x out : Nat} {rep : Option Nat} (hs : s.Ok)
    (hbal : Balanced s) (hsame : x = out) {ho : Handle} (eo : s.vars[out]? = some ho)
    (h : ifGiven test s x rep out = .ok s') :
    s'.vars = s.vars ∧ s'.Ok ∧ Balanced s' ∧ (∀ k, k ≠ ho.obj → s'.objs[k]? = s.objs[k]?) ∧
    ∀ c, InDims ho.view.dims c → ∃ v, s.value x c = .ok v ∧
      s'.value out c = s.value (if test v then rep.getD x else x) c ∧
      s'.variance out c = s.variance (if test v then rep.getD x else x) c := by
  subst hsame
  cases rep with
  | none =>
    simp only [ifGiven, Except.ok.injEq] at h
    subst h
    refine ⟨rfl, hs, hbal, fun _ _ => rfl, fun c hc => ?_⟩
    obtain ⟨o, g1, g2⟩ := hs ho (List.mem_of_getElem? eo)
    refine ⟨_, value_eq eo g1 ((viewOf_good g2).2.1 c hc), ?_⟩
    simp
  | some r =>
    simp only [ifGiven] at h
    obtain ⟨hx, hr, ho', ex, er, eo', a, b, c, d, e, -, g⟩ := replaceInto_spec hs hbal h
    rw [eo] at eo'; injection eo' with eo'; subst eo'
    exact ⟨a, b, c, e, g⟩

theorem testPosInf_iff (v : Ext) : testPosInf v = true ↔ v = .pinf := by
  cases v <;> simp [testPosInf, Ext.isinf, Ext.lt, Ext.isnan, Ext.le]

theorem testNegInf_iff (v : Ext) : testNegInf v = true ↔ v = .ninf := by
  cases v <;> simp [testNegInf, Ext.isinf, Ext.lt, Ext.isnan, Ext.le]

theorem testNan_iff (v : Ext) : testNan v = true ↔ v = .nan := by
  cases v <;> simp [testNan, Ext.isnan]

/-- The state right after `Variable out(x)`. -/
theorem shallow_spec {s s0 : Heap U Ext} {x : Nat} (h : s.exec (.derive x .same) = .ok s0) :
    ∃ hx, s.vars[x]? = some hx ∧ s0.objs = s.objs ∧ s0.vars = s.vars ++ [hx] := by
  simp only [Heap.exec] at h
  split at h
  · simp at h
  rename_i hx ex
  simp only [ViewOp.apply, Except.ok.injEq] at h
  exact ⟨hx, ex, by rw [← h]; rfl, by rw [← h]; rfl⟩

theorem value_append {s s0 : Heap U Ext} {hx : Handle} (ho : s0.objs = s.objs) (hv : s0.vars = s.vars ++ [hx])
    {i : Nat} {hi : Handle} (ei : s.vars[i]? = some hi) :
    s0.vars[i]? = some hi ∧ ∀ c, s0.value i c = s.value i c ∧ s0.variance i c = s.variance i c := by
  have e : s0.vars[i]? = some hi := by
    rw [hv, List.getElem?_append_left (List.getElem?_eq_some_iff.1 ei).1]; exact ei
  refine ⟨e, fun c => ?_⟩
  have : s0.lookup i = s.lookup i := by simp only [Heap.lookup, e, ei, ho]
  simp only [Heap.value, Heap.variance, this]
  simp

/-- All that `nanToNum` does, for the returned variable and for `x`. -/
theorem nanToNum_spec {s s' : Heap U Ext} (hs : s.Ok) (hbal : Balanced s) {x out : Nat}
    {nan posinf neginf : Option Nat} (hn : Separate s x nan) (hp : Separate s x posinf)
    (hm : Separate s x neginf)
    (fin : ∀ r c, nan = some r → s.value r c ≠ .ok .pinf ∧ s.value r c ≠ .ok .ninf)
    (fin' : ∀ r c, posinf = some r → s.value r c ≠ .ok .ninf)
    (h : nanToNum s x nan posinf neginf = .ok (s', out)) :
    ∃ hx, s.vars[x]? = some hx ∧ out = s.vars.length ∧ s'.vars = s.vars ++ [hx] ∧
      (∀ k, k ≠ hx.obj → s'.objs[k]? = s.objs[k]?) ∧
      ∀ c, InDims hx.view.dims c →
        s'.value out c = s.value (sourceOf s x nan posinf neginf c) c ∧
        s'.variance out c = s.variance (sourceOf s x nan posinf neginf c) c := by
  simp only [nanToNum, bind, Except.bind] at h
  split at h
  · simp at h
  rename_i s0 h0
  split at h
  · simp at h
  rename_i s1 h1
  split at h
  · simp at h
  rename_i s2 h2
  split at h
  · simp at h
  rename_i s3 h3
  injection h with h
  injection h with e1 e2
  subst e1 e2
  obtain ⟨hx, ex, eobj, evars⟩ := shallow_spec h0
  have hs0 : s0.Ok := exec_ok (op := .derive x .same) hs trivial h0
  have hb0 : Balanced s0 := by intro o ho; rw [eobj] at ho; exact hbal o ho
  have eo0 : s0.vars[s.vars.length]? = some hx := by rw [evars]; simp
  obtain ⟨v1, k1, b1, f1, g1⟩ := ifGiven_spec hs0 hb0 rfl eo0 h1
  have eo1 : s1.vars[s.vars.length]? = some hx := by rw [v1]; exact eo0
  obtain ⟨v2, k2, b2, f2, g2⟩ := ifGiven_spec k1 b1 rfl eo1 h2
  have eo2 : s2.vars[s.vars.length]? = some hx := by rw [v2]; exact eo1
  obtain ⟨v3, k3, b3, f3, g3⟩ := ifGiven_spec k2 b2 rfl eo2 h3
  refine ⟨hx, ex, rfl, by rw [v3, v2, v1, evars], ?_, ?_⟩
  · intro k hk; rw [f3 k hk, f2 k hk, f1 k hk, eobj]
  intro c hc
  -- values before
  have ov : s0.value s.vars.length c = s.value x c ∧ s0.variance s.vars.length c = s.variance x c := by
    have : s0.lookup s.vars.length = s.lookup x := by simp only [Heap.lookup, eo0, ex, eobj]
    simp only [Heap.value, Heap.variance, this]; simp
  have sep : ∀ r, (Separate s x (some r)) → ∃ hr, s.vars[r]? = some hr ∧ hr.obj ≠ hx.obj := by
    intro r hr
    obtain ⟨a, b, ha, hb, hab⟩ := hr r rfl
    rw [ex] at hb; injection hb with hb; subst hb
    exact ⟨a, ha, hab⟩
  have rv : ∀ r, (Separate s x (some r)) →
      (s0.value r c = s.value r c ∧ s0.variance r c = s.variance r c) ∧
      (s1.value r c = s.value r c ∧ s1.variance r c = s.variance r c) ∧
      (s2.value r c = s.value r c ∧ s2.variance r c = s.variance r c) := by
    intro r hr
    obtain ⟨a, ha, hab⟩ := sep r hr
    obtain ⟨e0, w0⟩ := value_append eobj evars ha
    have e1 : s1.vars[r]? = some a := by rw [v1]; exact e0
    have w1 := value_frame v1 f1 e0 hab c
    have w2 := value_frame v2 f2 e1 hab c
    refine ⟨w0 c, ?_, ?_⟩
    · rw [w1.1, w1.2.1]; exact w0 c
    · rw [w2.1, w2.2.1, w1.1, w1.2.1]; exact w0 c
  obtain ⟨y1, p1, q1, r1⟩ := g1 c hc
  obtain ⟨y2, p2, q2, r2⟩ := g2 c hc
  obtain ⟨y3, p3, q3, r3⟩ := g3 c hc
  rw [ov.1] at p1
  rw [q3, r3]
  have get : ∀ {rep : Option Nat}, Separate s x rep → ∀ (st : Heap U Ext),
      (∀ r, rep = some r → st.value r c = s.value r c ∧ st.variance r c = s.variance r c) →
      (rep = none → st.value s.vars.length c = s.value x c ∧ st.variance s.vars.length c = s.variance x c) →
      st.value (rep.getD s.vars.length) c = s.value (rep.getD x) c ∧
      st.variance (rep.getD s.vars.length) c = s.variance (rep.getD x) c := by
    intro rep _ st h1 h2
    cases rep with
    | none => exact h2 rfl
    | some r => exact h1 r rfl
  have getn := get hn s0 (fun r e => (rv r (e ▸ hn)).1) (fun _ => ov)
  cases y1 with
  | nan =>
    have src : sourceOf s x nan posinf neginf c = nan.getD x := by simp [sourceOf, p1]
    rw [src]
    simp only [testNan, Ext.isnan, if_true] at q1 r1
    rw [getn.1] at q1
    rw [getn.2] at r1
    have notinf : ∀ y, s.value (nan.getD x) c = .ok y → y ≠ .pinf ∧ y ≠ .ninf := by
      intro y hy
      cases nan with
      | none => simp only [Option.getD_none, p1] at hy; injection hy with hy; subst hy; simp
      | some r =>
        obtain ⟨a, b⟩ := fin r c rfl
        simp only [Option.getD_some] at hy
        constructor
        · rintro rfl; exact a hy
        · rintro rfl; exact b hy
    rw [q1] at p2
    have t2 : ¬ testPosInf y2 = true := by rw [testPosInf_iff]; exact (notinf _ p2).1
    rw [if_neg t2] at q2 r2
    rw [q2, q1] at p3
    have t3 : ¬ testNegInf y3 = true := by rw [testNegInf_iff]; exact (notinf _ p3).2
    rw [if_neg t3, q2, r2, q1, r1]
    exact ⟨rfl, rfl⟩
  | ninf =>
    have src : sourceOf s x nan posinf neginf c = neginf.getD x := by simp [sourceOf, p1]
    rw [src]
    simp only [testNan, Ext.isnan, Bool.false_eq_true, if_false] at q1 r1
    rw [ov.1] at q1; rw [ov.2] at r1
    rw [q1, p1] at p2; injection p2 with p2; subst p2
    rw [if_neg (by decide)] at q2 r2
    rw [q2, q1, p1] at p3; injection p3 with p3; subst p3
    rw [if_pos (by decide)]
    refine get hm s2 (fun r e => (rv r (e ▸ hm)).2.2) (fun _ => ?_)
    rw [q2, r2, q1, r1]; exact ⟨rfl, rfl⟩
  | fin q =>
    have src : sourceOf s x nan posinf neginf c = x := by simp [sourceOf, p1]
    rw [src]
    simp only [testNan, Ext.isnan, Bool.false_eq_true, if_false] at q1 r1
    rw [ov.1] at q1; rw [ov.2] at r1
    rw [q1, p1] at p2; injection p2 with p2; subst p2
    rw [if_neg (by simp [testPosInf_iff])] at q2 r2
    rw [q2, q1, p1] at p3; injection p3 with p3; subst p3
    rw [if_neg (by simp [testNegInf_iff]), q2, r2, q1, r1]
    exact ⟨rfl, rfl⟩
  | pinf =>
    have src : sourceOf s x nan posinf neginf c = posinf.getD x := by simp [sourceOf, p1]
    rw [src]
    simp only [testNan, Ext.isnan, Bool.false_eq_true, if_false] at q1 r1
    rw [ov.1] at q1; rw [ov.2] at r1
    rw [q1, p1] at p2; injection p2 with p2; subst p2
    rw [if_pos (by decide)] at q2 r2
    have getp := get hp s1 (fun r e => (rv r (e ▸ hp)).2.1) (fun _ => ⟨by rw [q1], by rw [r1]⟩)
    rw [getp.1] at q2; rw [getp.2] at r2
    have t3 : ¬ testNegInf y3 = true := by
      rw [testNegInf_iff]
      rintro rfl
      rw [q2] at p3
      cases posinf with
      | none => simp [p1] at p3
      | some r => exact fin' r c rfl p3
    rw [if_neg t3, q2, r2]
    exact ⟨rfl, rfl⟩

/-- **C71** Elements of the variable returned by `nan_to_num(x, nan=…, posinf=…, neginf=…)`, values and variances, are those
of `x`, except that NaN, `inf` and `-inf` are replaced by the given replacement for each.

Missing: NaN replaced by an infinity and `inf` replaced by `-inf`, see `C71_wrong_chained`, replacements that share the
buffer of `x`; and `x` itself should be unchanged, see `C71_wrong_input_modified`. -/
theorem C71_values_partial (s s' : Heap U Ext) (hs : s.Ok) (hbal : Balanced s) (x out : Nat)
    (nan posinf neginf : Option Nat) (hn : Separate s x nan) (hp : Separate s x posinf) (hm : Separate s x neginf)
    (fin : ∀ r c, nan = some r → s.value r c ≠ .ok .pinf ∧ s.value r c ≠ .ok .ninf)
    (fin' : ∀ r c, posinf = some r → s.value r c ≠ .ok .ninf)
    (h : nanToNum s x nan posinf neginf = .ok (s', out)) :
    ∃ hx, s.vars[x]? = some hx ∧ ∀ c, InDims hx.view.dims c →
      s'.value out c = s.value (sourceOf s x nan posinf neginf c) c ∧
      s'.variance out c = s.variance (sourceOf s x nan posinf neginf c) c := by
  obtain ⟨hx, ex, -, -, -, g⟩ := nanToNum_spec hs hbal hn hp hm fin fin' h
  exact ⟨hx, ex, g⟩

/-- **C71 fails** for the input: the result shares its buffer, so that after every successful call the elements of `x`
itself are the replaced ones. -/
theorem C71_wrong_input_modified (s s' : Heap U Ext) (hs : s.Ok) (hbal : Balanced s) (x out : Nat)
    (nan posinf neginf : Option Nat) (hn : Separate s x nan) (hp : Separate s x posinf) (hm : Separate s x neginf)
    (fin : ∀ r c, nan = some r → s.value r c ≠ .ok .pinf ∧ s.value r c ≠ .ok .ninf)
    (fin' : ∀ r c, posinf = some r → s.value r c ≠ .ok .ninf)
    (h : nanToNum s x nan posinf neginf = .ok (s', out)) :
    ∃ hx, s.vars[x]? = some hx ∧ ∀ c, InDims hx.view.dims c →
      s'.value x c = s.value (sourceOf s x nan posinf neginf c) c := by
  obtain ⟨hx, ex, eo, ev, -, g⟩ := nanToNum_spec hs hbal hn hp hm fin fin' h
  refine ⟨hx, ex, fun c hc => ?_⟩
  rw [← (g c hc).1]
  have e1 : s'.vars[x]? = some hx := by
    rw [ev, List.getElem?_append_left (List.getElem?_eq_some_iff.1 ex).1]; exact ex
  have e2 : s'.vars[out]? = some hx := by rw [ev, eo]; simp
  have : s'.lookup x = s'.lookup out := by simp only [Heap.lookup, e1, e2]
  simp only [Heap.value, this]

/-- **C71** Variables that do not share the buffer of `x` are unchanged. -/
theorem C71_others_unchanged (s s' : Heap U Ext) (hs : s.Ok) (hbal : Balanced s) (x out : Nat)
    (nan posinf neginf : Option Nat) (hn : Separate s x nan) (hp : Separate s x posinf) (hm : Separate s x neginf)
    (fin : ∀ r c, nan = some r → s.value r c ≠ .ok .pinf ∧ s.value r c ≠ .ok .ninf)
    (fin' : ∀ r c, posinf = some r → s.value r c ≠ .ok .ninf)
    (h : nanToNum s x nan posinf neginf = .ok (s', out)) (i : Nat) (hi hx : Handle)
    (ei : s.vars[i]? = some hi) (ex : s.vars[x]? = some hx) (hne : hi.obj ≠ hx.obj) (c : Dim → Int) :
    s'.value i c = s.value i c ∧ s'.variance i c = s.variance i c := by
  obtain ⟨hx', ex', eo, ev, f, -⟩ := nanToNum_spec hs hbal hn hp hm fin fin' h
  rw [ex] at ex'; injection ex' with ex'; subst ex'
  have e1 : s'.vars[i]? = some hi := by
    rw [ev, List.getElem?_append_left (List.getElem?_eq_some_iff.1 ei).1]; exact ei
  have : s'.lookup i = s.lookup i := by simp only [Heap.lookup, e1, ei, f _ hne]
  simp only [Heap.value, Heap.variance, this]
  simp

/-- **C71** With an output argument and a single replacement: the elements of `out` are those of `x` with
that replacement, all variables that do not share the buffer of `out` are unchanged, and
the units of `x` and the replacement are equal and become that of `out`.

Missing: two or three replacements, see `C71_wrong_out_combined`, and no replacement, see `C71_wrong_out_none`. -/
theorem C71_out_partial (s s' : Heap U Ext) (hs : s.Ok) (hbal : Balanced s) (x out r : Nat) (ho : Handle)
    (eo : s.vars[out]? = some ho)
    (nan posinf neginf : Option Nat)
    (hone : (nan, posinf, neginf) = (some r, none, none) ∨ (nan, posinf, neginf) = (none, some r, none) ∨
      (nan, posinf, neginf) = (none, none, some r))
    (h : nanToNumOut s x nan posinf neginf out = .ok s') :
    (∀ c, InDims ho.view.dims c →
      s'.value out c = s.value (sourceOf s x nan posinf neginf c) c ∧
      s'.variance out c = s.variance (sourceOf s x nan posinf neginf c) c) ∧
    (∀ i hi c, s.vars[i]? = some hi → hi.obj ≠ ho.obj →
      s'.value i c = s.value i c ∧ s'.variance i c = s.variance i c ∧ s'.unit i = s.unit i) ∧
    s.unit x = s.unit r ∧ s'.unit out = s.unit x := by
  have key : ∃ test, replaceInto test s x r out = .ok s' ∧ ∀ c v, s.value x c = .ok v →
      sourceOf s x nan posinf neginf c = if test v then r else x := by
    simp only [nanToNumOut, bind, Except.bind] at h
    rcases hone with e | e | e <;> simp only [Prod.mk.injEq] at e <;> obtain ⟨rfl, rfl, rfl⟩ := e
    · refine ⟨testNan, ?_, ?_⟩
      · simp only [ifGiven] at h
        split at h
        · simp at h
        · rename_i h1; rw [h1]; exact h
      · intro c v hv
        cases v <;> simp [sourceOf, hv, testNan, Ext.isnan]
    · refine ⟨testPosInf, ?_, ?_⟩
      · simp only [ifGiven] at h
        split at h
        · simp at h
        · rename_i h1; rw [h1]; exact h
      · intro c v hv
        cases v <;> simp [sourceOf, hv, testPosInf_iff]
    · refine ⟨testNegInf, ?_, ?_⟩
      · simpa only [ifGiven] using h
      · intro c v hv
        cases v <;> simp [sourceOf, hv, testNegInf_iff]
  obtain ⟨test, hr, src⟩ := key
  obtain ⟨_, hr', ho', _, er, eo', a, b, cc, d, e, u, g⟩ := replaceInto_spec hs hbal hr
  rw [eo] at eo'; injection eo' with eo'; subst eo'
  refine ⟨fun c hc => ?_, fun i hi c ei hio => value_frame a e ei hio c, u.1, u.2⟩
  obtain ⟨v, p, q, q'⟩ := g c hc
  rw [src c v p]
  exact ⟨q, q'⟩

/-- Writing succeeds within the buffers. -/
theorem write_exists {v : View} : ∀ (l : List ((Dim → Int) × Ext × Ext)) (o : Obj U Ext),
    (∀ e ∈ l, InDims v.dims e.1 ∧ 0 ≤ v.addr e.1 ∧ v.addr e.1 < o.values.size) →
    (∀ b, o.variances = some b → b.size = o.values.size) → ∃ o', o.write v l = .ok o'
  | [], o, _, _ => ⟨o, rfl⟩
  | e :: l, o, h, hb => by
    obtain ⟨h1, h2, h3⟩ := h e (by simp)
    have hi : inDims v.dims e.1 = true := inDims_iff.2 h1
    have : ∃ o1, o.write1 v e = .ok o1 ∧ o1.values.size = o.values.size ∧ ∀ b, o1.variances = some b → b.size = o.values.size := by
      simp only [Obj.write1, hi, Bool.true_eq_false, if_false]
      rw [if_neg (by omega)]
      cases hv : o.variances with
      | none => exact ⟨_, rfl, rfl, fun b hb => by simp at hb⟩
      | some b =>
        have := hb b hv
        simp only
        rw [if_neg (by omega)]
        refine ⟨_, rfl, rfl, fun b' hb' => ?_⟩
        simp only [Option.some.injEq] at hb'
        rw [← hb', ← this]; rfl
    obtain ⟨o1, e1, e2, e3⟩ := this
    obtain ⟨o', he'⟩ := write_exists l o1 (fun e' he' => by rw [e2]; exact h e' (List.mem_cons_of_mem _ he')) (by rw [e2]; exact e3)
    exact ⟨o', by simp only [Obj.write, e1, he']⟩

/-- Replacing succeeds if argument and replacement fit into the output, have the same unit and both have variances or
not as the output has, and neither shares its buffer; the unit of a slice cannot be changed. -/
theorem C71_out_succeeds (s : Heap U Ext) (hs : s.Ok) (hbal : Balanced s) (x r out : Nat) (hx hr ho : Handle) (ox orep oo : Obj U Ext)
    (ex : s.vars[x]? = some hx) (er : s.vars[r]? = some hr) (eo : s.vars[out]? = some ho)
    (eox : s.objs[hx.obj]? = some ox) (eor : s.objs[hr.obj]? = some orep) (eoo : s.objs[ho.obj]? = some oo)
    (dx : ∀ p ∈ hx.view.dims, p ∈ ho.view.dims) (dr : ∀ p ∈ hr.view.dims, p ∈ ho.view.dims)
    (hu : ox.unit = orep.unit)
    (huo : oo.unit = ox.unit ∨ (ho.view.offset = 0 ∧ Dims.volume ho.view.dims = oo.values.size))
    (hro : ho.view.readonly = false)
    (vx : ox.variances.isSome = oo.variances.isSome) (vr : orep.variances.isSome = oo.variances.isSome)
    (sx : hx.obj ≠ ho.obj) (sr : hr.obj ≠ ho.obj)
    (nan posinf neginf : Option Nat)
    (hone : (nan, posinf, neginf) = (some r, none, none) ∨ (nan, posinf, neginf) = (none, some r, none) ∨
      (nan, posinf, neginf) = (none, none, some r)) :
    ∃ s', nanToNumOut s x nan posinf neginf out = .ok s' := by
  have key : ∀ test, ∃ s', replaceInto test s x r out = .ok s' := by
    intro test
    obtain ⟨_, g1, g2⟩ := hs ho (List.mem_of_getElem? eo)
    rw [eoo] at g1; injection g1 with g1; subst g1
    obtain ⟨_, gx1, gx2⟩ := hs hx (List.mem_of_getElem? ex)
    rw [eox] at gx1; injection gx1 with gx1; subst gx1
    obtain ⟨_, gr1, gr2⟩ := hs hr (List.mem_of_getElem? er)
    rw [eor] at gr1; injection gr1 with gr1; subst gr1
    have go := Props.viewOf_good g2
    have gx := Props.viewOf_good gx2
    have gr := Props.viewOf_good gr2
    have i1 : includes ho.view.dims hx.view.dims = true := (includes_iff go.1.1.1 gx.1.1.1).2 dx
    have i2 : includes ho.view.dims hr.view.dims = true := (includes_iff go.1.1.1 gr.1.1.1).2 dr
    have hlt : ho.obj < s.objs.length := (List.getElem?_eq_some_iff.1 eoo).1
    have hsl : ¬ (oo.unit ≠ ox.unit ∧ isSlice ho.view oo.values.size = true) := by
      rintro ⟨q1, q2⟩
      rcases huo with q | ⟨q3, q4⟩
      · exact q1 q
      · simp [isSlice, q3, q4] at q2
    obtain ⟨o1, ho1⟩ := write_exists (newElems test ox hx.view orep hr.view ho.view.dims) oo (v := ho.view) (by
      intro e he
      simp only [newElems, List.mem_map, List.mem_range] at he
      obtain ⟨k, hk, rfl⟩ := he
      have hc : InDims ho.view.dims (coordsOf ho.view.dims (k : Int)) := coordsOf_inDims go.1.1 (by omega) (by omega)
      have : ∀ t : Bool, (if t then (coordsOf ho.view.dims (k : Int), orep.values.at_ (hr.view.addr (coordsOf ho.view.dims k)), varianceAt orep (hr.view.addr (coordsOf ho.view.dims k)))
        else (coordsOf ho.view.dims (k : Int), ox.values.at_ (hx.view.addr (coordsOf ho.view.dims k)), varianceAt ox (hx.view.addr (coordsOf ho.view.dims k)))).1 = coordsOf ho.view.dims (k : Int) := by
        intro t; cases t <;> rfl
      simp only [this]
      exact ⟨hc, go.2.1 _ hc⟩) (hbal _ (List.mem_of_getElem? eoo))
    obtain ⟨sz, su, -⟩ := write_sizes ho1
    simp only [replaceInto, ex, er, eo, eox, eor, eoo, i1, i2, Bool.and_self, Bool.true_eq_false, if_false, hu, ne_eq, not_true_eq_false, vx, vr, beq_self_eq_true, hro,
      Bool.false_eq_true, overlapping, sx.symm, sr.symm, decide_false, Bool.false_and, Bool.or_self]
    rw [hu] at hsl
    rw [if_neg hsl]
    simp only [Heap.exec, Heap.modify, eo, eoo, Obj.checkedWrite, expectWritable, hro, Bool.false_eq_true, if_false, ho1, Heap.setObj, List.getElem?_set_self hlt,
      Obj.setUnit, sz, su]
    rw [if_neg hsl]
    exact ⟨_, rfl⟩
  rcases hone with e | e | e <;> simp only [Prod.mk.injEq] at e <;> obtain ⟨rfl, rfl, rfl⟩ := e
  · obtain ⟨s', h⟩ := key testNan
    exact ⟨s', by simp only [nanToNumOut, ifGiven, h, bind, Except.bind]⟩
  · obtain ⟨s', h⟩ := key testPosInf
    exact ⟨s', by simp only [nanToNumOut, ifGiven, h, bind, Except.bind]⟩
  · obtain ⟨s', h⟩ := key testNegInf
    exact ⟨s', by simp only [nanToNumOut, ifGiven, h, bind, Except.bind]⟩

/-! ### Examples and counterexamples -/

/-- Variable 0: `[NaN, inf, -inf, 5]`; 1, 2, 3: scalars 1, 2, -3; 4: scalar `inf`; 5: four zeros. -/
def exNan : Heap Nat Ext :=
  (⟨[], []⟩ : Heap Nat Ext).run
    [.new [(1, 4)] 0 (fun k => if k = 0 then .nan else if k = 1 then .pinf else if k = 2 then .ninf else .fin 5) none,
     .new [] 0 (fun _ => .fin 1) none, .new [] 0 (fun _ => .fin 2) none, .new [] 0 (fun _ => .fin (-3)) none,
     .new [] 0 (fun _ => .pinf) none, .new [(1, 4)] 0 (fun _ => .fin 0) none]

/-- Values of a variable of length four. -/
def values4 (s : Heap Nat Ext) (i : Nat) : List (Option Ext) :=
  [0, 1, 2, 3].map fun k => (s.value i (fun _ => k)).toOption

theorem exNan_ok : exNan.Ok :=
  run_ok (by intro h hm; simp at hm) (by
    intro op hm
    simp only [List.mem_cons, List.not_mem_nil, or_false] at hm
    rcases hm with rfl | rfl | rfl | rfl | rfl | rfl <;> simp [HeapOp.Proper, WF, labels])

theorem exNan_balanced : Balanced exNan := by
  intro o ho b hb
  have : ∀ o ∈ exNan.objs, o.variances = none := by
    intro o ho
    simp [exNan, Heap.run, Heap.step, Heap.exec, Heap.addObj] at ho
    rcases ho with rfl | rfl | rfl | rfl | rfl | rfl <;> rfl
  rw [this o ho] at hb
  simp at hb

/-- The hypotheses of `C71_values_partial` and `C71_wrong_input_modified` hold for the example. -/
example : Separate exNan 0 (some 1) ∧ Separate exNan 0 (some 2) ∧ Separate exNan 0 (some 3) ∧
    (exNan.value 1 (fun _ => 0) = .ok (.fin 1)) := by
  refine ⟨?_, ?_, ?_, rfl⟩ <;> (intro r hr; injection hr with hr; subst hr; exact ⟨_, _, rfl, rfl, by decide⟩)

/-- The returned variable, and `x` after the call. -/
example : (match nanToNum exNan 0 (some 1) (some 2) (some 3) with
    | .ok (s', out) => decide (values4 s' out = [some (.fin 1), some (.fin 2), some (.fin (-3)), some (.fin 5)] ∧
        values4 s' 0 = [some (.fin 1), some (.fin 2), some (.fin (-3)), some (.fin 5)] ∧
        values4 exNan 0 = [some .nan, some .pinf, some .ninf, some (.fin 5)])
    | .error _ => false) = true := by decide +kernel

/-- **C71 fails** if NaN is replaced by `inf`: that is then taken for an `inf` of the input. -/
theorem C71_wrong_chained : (match nanToNum exNan 0 (some 4) (some 2) none with
    | .ok (s', out) => decide ((values4 s' out).head? = some (some (.fin 2)) ∧
        (values4 exNan 0).head? = some (some .nan) ∧ exNan.value 4 (fun _ => 0) = .ok .pinf)
    | .error _ => false) = true := by decide +kernel

/-- A single replacement with output argument. -/
example : (match nanToNumOut exNan 0 none (some 2) none 5 with
    | .ok s' => decide (values4 s' 5 = [some .nan, some (.fin 2), some .ninf, some (.fin 5)] ∧
        values4 s' 0 = values4 exNan 0)
    | .error _ => false) = true := by decide +kernel

/-- An output that is a slice, of the same unit. -/
def exNanSlice : Heap Nat Ext :=
  (⟨[], []⟩ : Heap Nat Ext).run
    [.new [(1, 2)] 0 (fun k => if k = 0 then .nan else .fin 5) none, .new [] 0 (fun _ => .fin 1) none,
     .new [(1, 4)] 0 (fun _ => .fin 0) none, .derive 2 (.slice ⟨1, 1, 3, 1⟩)]

theorem exNanSlice_ok : exNanSlice.Ok :=
  run_ok (by intro h hm; simp at hm) (by
    intro op hm
    simp only [List.mem_cons, List.not_mem_nil, or_false] at hm
    rcases hm with rfl | rfl | rfl | rfl <;> simp [HeapOp.Proper, WF, labels, ViewOp.Proper, Slice.Constructed]
    exact .inr (.inl (by decide)))

theorem exNanSlice_balanced : Balanced exNanSlice := by
  intro o ho b hb
  have : ∀ o ∈ exNanSlice.objs, o.variances = none := by
    intro o ho
    have e : exNanSlice.objs = [⟨0, ⟨2, fun k => if k = 0 then .nan else .fin 5⟩, none⟩, ⟨0, ⟨1, fun _ => .fin 1⟩, none⟩, ⟨0, ⟨4, fun _ => .fin 0⟩, none⟩] := rfl
    rw [e] at ho
    simp only [List.mem_cons, List.not_mem_nil, or_false] at ho
    rcases ho with rfl | rfl | rfl <;> rfl
  rw [this o ho] at hb
  simp at hb

example : ∃ s', nanToNumOut exNanSlice 0 (some 1) none none 3 = .ok s' :=
  C71_out_succeeds exNanSlice exNanSlice_ok exNanSlice_balanced 0 1 3 _ _ _ _ _ _ rfl rfl rfl rfl rfl rfl (by decide) (by decide) rfl (.inl rfl) rfl rfl rfl
    (by decide) (by decide) _ _ _ (.inl rfl)

/-- **C71 fails** with output argument and several replacements: each starts from `x`, so only the last one has an
effect. NaN was to be replaced by 1. -/
theorem C71_wrong_out_combined : (match nanToNumOut exNan 0 (some 1) (some 2) none 5 with
    | .ok s' => decide (values4 s' 5 = [some .nan, some (.fin 2), some .ninf, some (.fin 5)])
    | .error _ => false) = true := by decide +kernel

/-- **C71 fails** with output argument and no replacement: `out` is not written. -/
theorem C71_wrong_out_none (s : Heap U Ext) (x out : Nat) : nanToNumOut s x none none none out = .ok s := rfl

end Scipp.Props
