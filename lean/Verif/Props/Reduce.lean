import Verif.Model.Reduce
import Verif.Lemmas.Reduce
import Verif.Props.Transform
import Verif.Props.Accumulate
/-!
Property C57: reductions along a dim.
-/
namespace Scipp.Props
open Scipp Sizes
variable {V : Type}

/-- The code loses its way if the reduced dim is the second-innermost of at least three and the
input has stride 0 in it (a broadcast variable). -/
def ReducesBroadcast (v : View) (dim : Dim) : Prop :=
  ∃ pre n last, v.dims = pre ++ [(dim, n), last] ∧ pre ≠ [] ∧ n ≠ 1 ∧ v.strides.getD pre.length 0 = 0

/-- **C57**: reducing `dim` of a variable (any view of any buffer) gives a variable with all other dims, in order.
Its element at coordinates `c` is the initial value combined with exactly the input elements at `c` and
`dim = 0, ..., n - 1`, each once and in this order, for every split into blocks and every interleaving
of the threads. Nothing outside the output is written. What is missing: it does
not hold for inputs that are broadcast along `dim`, see `C57_wrong_for_broadcast`. -/
theorem C57_reduce_partial (op : V → V → V) (init : V) (x : Operand V) (f : Int → V) (pre post : Dims) (dim : Dim) (n : Int)
    (hg : GoodOperand x) (hf : x.buf = some f) (hd : x.view.dims = pre ++ (dim, n) :: post)
    (hz : ¬ ReducesBroadcast x.view dim) (dims : Dims) (mem : Int → V)
    (h : reduceDimView op init x dim (.ok (dims, mem))) :
    dims = pre ++ post ∧
    (∀ c, InDims dims c → mem (position dims c) =
      (intRange 0 n).foldl (fun acc j => op acc (f (x.view.addr (upd c dim j)))) init) ∧
    ∀ a, a < 0 ∨ Dims.volume dims ≤ a → mem a = init := by
  have hdp : dim ∉ labels pre := by
    have := hg.1.1.1
    rw [hd] at this
    simp only [labels, List.map_append, List.map_cons, List.nodup_append, List.mem_cons, forall_eq_or_imp] at this
    exact fun h => (this.2.2 dim h).1 rfl
  have hw : WF (pre ++ (dim, n) :: post) := hd ▸ hg.1.1
  have hsub : (pre ++ post).Sublist (pre ++ (dim, n) :: post) :=
    List.Sublist.append (List.Sublist.refl _) (List.sublist_cons_self _ _)
  have hwp : WF (pre ++ post) := ⟨(hsub.map Prod.fst).nodup hw.1, fun p hp => hw.2 p (hsub.subset hp)⟩
  simp only [reduceDimView, hd, erase_mid hdp] at h
  obtain ⟨r', hacc, hr⟩ := h
  simp only [accumulateInPlace, TransformInPlace] at hacc
  have hov : (List.finRange 1).any (fun _ => Operand.overlaps (View.fresh (pre ++ post)) x) = false := by
    simp [Operand.overlaps, hf]
  simp only [hov, Bool.false_eq_true, false_and, if_false] at hacc
  cases hs : inPlaceSetup (View.fresh (pre ++ post)) (fun _ : Fin 1 => x) with
  | error e =>
    simp only [hs] at hacc
    rw [hacc] at hr
    cases hr
  | ok q =>
    obtain ⟨dims', m⟩ := q
    simp only [hs] at hacc
    obtain ⟨mem', hrun, rfl⟩ := hacc
    have hset := reduce_setup pre post dim n x hg hd _ hs
    cases hmk : MultiIndex.make x.view.dims (Fin.cons ((labels x.view.dims).map (strideOf (pre ++ post)
        (rowMajor (shape (pre ++ post))))) (fun _ : Fin 1 => (labels x.view.dims).map (strideOf x.view.dims x.view.strides))) with
    | error e => rw [hmk] at hset; cases hset
    | ok m' =>
      rw [hmk] at hset
      injection hset with hset
      injection hset with h1 h2
      subst h1 h2
      injection hr with hr
      injection hr with h1 h2
      subst h1 h2
      have heff := accumulate_effect (fresh_WF hwp) (fresh_distinct hwp.1) (fun _ => hg.1) hg.1.1
        (fun p hp => by rw [hd]; exact hsub.subset hp) (fun _ p hp => hp) (fun _ => by simp [hf]) hmk
        (reduce_noZeroRun hg.1 hd (by
          intro last hp hne hn h0
          exact hz ⟨pre, n, last, by rw [hd, hp], hne, hn, h0⟩)) hrun
      refine ⟨rfl, fun c hc => ?_, fun a ha => ?_⟩
      · rw [heff]
        rw [hd, reduce_filter hw hc, List.foldl_map]
        apply List.foldl_ext
        intro acc j hj
        rw [mem_intRange] at hj
        have hin : InDims (pre ++ (dim, n) :: post) (upd c dim j) := by
          intro e k hk
          by_cases he : e = dim
          · subst he
            have h2 := at?_of_mem hw.1 hk
            rw [at?_of_mem hw.1 (show (e, n) ∈ pre ++ (e, n) :: post by simp)] at h2
            injection h2 with h2
            rw [upd_same]
            omega
          · rw [upd_ne he]
            refine hc e k ?_
            simp only [List.mem_append, List.mem_cons, Prod.mk.injEq] at hk ⊢
            rcases hk with h | ⟨h, _⟩ | h
            · exact .inl h
            · exact absurd h he
            · exact .inr h
        congr 1
        simp only [Operand.read, hf, Option.getD_some, View.addr]
        rw [hd, addrAux_congr (fun e he => coordsOf_position hw.1 hin e he)]
      · rw [heff, List.filter_eq_nil_iff.2]
        · rfl
        · intro k hk
          rw [mem_intRange, hd] at hk
          simp only [decide_eq_true_eq, fresh_addr, hd]
          have hck := coordsOf_inDims hw hk.1 hk.2
          have := position_bounds (s := pre ++ post) (c := coordsOf (pre ++ (dim, n) :: post) k)
            (fun e m hm => hck e m (hsub.subset hm))
          omega

/-- **C57** (the loops end, and the reduction succeeds): for at most six dims there is a run, and every run gives a result. -/
theorem C57_reduce_runs_partial (op : V → V → V) (init : V) (x : Operand V) (pre post : Dims) (dim : Dim) (n : Int)
    (hg : GoodOperand x) (hf : x.buf ≠ none) (hd : x.view.dims = pre ++ (dim, n) :: post) (hlen : x.view.dims.length ≤ 6)
    (hz : ¬ ReducesBroadcast x.view dim) :
    (∃ r, reduceDimView op init x dim r) ∧ ∀ r, reduceDimView op init x dim r → ∃ dims mem, r = .ok (dims, mem) := by
  have hdp : dim ∉ labels pre := by
    have := hg.1.1.1
    rw [hd] at this
    simp only [labels, List.map_append, List.map_cons, List.nodup_append, List.mem_cons, forall_eq_or_imp] at this
    exact fun h => (this.2.2 dim h).1 rfl
  have hov : (List.finRange 1).any (fun _ => Operand.overlaps (View.fresh (pre ++ post)) x) = false := by
    simp [Operand.overlaps, hf]
  obtain ⟨m, hmk⟩ := MultiIndex.make_ok (strides := (Fin.cons ((labels x.view.dims).map (strideOf (pre ++ post)
        (rowMajor (shape (pre ++ post))))) (fun _ : Fin 1 => (labels x.view.dims).map (strideOf x.view.dims x.view.strides)) :
        Fin 2 → List Int)) hlen
  have hset := reduce_setup pre post dim n x hg hd _ rfl
  rw [hmk] at hset
  simp only [Except.map] at hset
  have hex := accumulate_exists (op := fun a (b : Fin 1 → V) => op a (b 0)) (out := View.fresh (pre ++ post)) (ins := fun _ => x)
    hg.1.1 (by intro i; refine Fin.cases ?_ (fun j => ?_) i <;> simp [labels]) hmk
    (reduce_noZeroRun hg.1 hd (by
          intro last hp hne hn h0
          exact hz ⟨pre, n, last, by rw [hd, hp], hne, hn, h0⟩)) (fun _ => init)
  have he : erase x.view.dims dim = .ok (pre ++ post) := by rw [hd]; exact erase_mid hdp
  simp only [reduceDimView, he, accumulateInPlace, TransformInPlace, hov, Bool.false_eq_true, false_and, if_false, hset]
  obtain ⟨mem', hm⟩ := hex
  refine ⟨⟨_, _, ⟨mem', hm, rfl⟩, rfl⟩, ?_⟩
  rintro r ⟨r', ⟨mem', _, rfl⟩, rfl⟩
  exact ⟨_, _, rfl⟩

/-- **C57** (unknown dim): reducing a dim the variable does not have is an error, without any access to the data. -/
theorem C57_reduce_missing_dim (op : V → V → V) (init : V) (x : Operand V) (dim : Dim) (hd : dim ∉ labels x.view.dims)
    (r : Except Err (Dims × (Int → V))) : reduceDimView op init x dim r ↔ r = .error .dimension := by
  have he : erase x.view.dims dim = .error .dimension := by
    generalize x.view.dims = s at hd
    induction s with
    | nil => rfl
    | cons p s ih =>
      simp only [labels_cons, List.mem_cons, not_or] at hd
      simp only [erase]
      rw [if_neg (fun e => hd.1 e.symm), ih hd.2]
      rfl
  simp only [reduceDimView, he]

theorem foldl_op_assoc {op : V → V → V} {init : V} (hassoc : ∀ x y z, op (op x y) z = op x (op y z))
    (hid : ∀ x, op x init = x) : ∀ (l : List V) (acc : V), op acc (l.foldl op init) = l.foldl op acc := by
  intro l
  have key : ∀ (l : List V) (acc b : V), op acc (l.foldl op b) = l.foldl op (op acc b) := by
    intro l
    induction l with
    | nil => intros; rfl
    | cons x l ih => intro acc b; simp only [List.foldl_cons]; rw [ih, hassoc]
  intro acc
  rw [key, hid]

theorem foldl_flatMap_op {op : V → V → V} {init : V} (hassoc : ∀ x y z, op (op x y) z = op x (op y z))
    (hid : ∀ x, op x init = x) {α : Type} (g : α → List V) : ∀ (l : List α) (acc : V),
    l.foldl (fun acc k => op acc ((g k).foldl op init)) acc = (l.flatMap g).foldl op acc
  | [], _ => rfl
  | a :: l, acc => by
    simp only [List.foldl_cons, List.flatMap_cons, List.foldl_append]
    rw [foldl_op_assoc hassoc hid, foldl_flatMap_op hassoc hid g l]

theorem intRange_mul {a b : Int} (ha : 0 ≤ a) (hb : 0 ≤ b) :
    intRange 0 (a * b) = (intRange 0 a).flatMap (fun k => (intRange 0 b).map (fun j => k * b + j)) := by
  obtain ⟨m, rfl⟩ := Int.eq_ofNat_of_zero_le ha
  obtain ⟨n, rfl⟩ := Int.eq_ofNat_of_zero_le hb
  clear ha hb
  induction m with
  | zero => simp [intRange]
  | succ m ih =>
    have e1 : intRange 0 ((m + 1 : Nat) : Int) = intRange 0 (m : Int) ++ [(m : Int)] := by
      simp [intRange, List.range_succ]
    rw [e1, List.flatMap_append, ← ih]
    simp only [List.flatMap_cons, List.flatMap_nil, List.append_nil, intRange, Int.sub_zero, List.map_map, zero_add]
    have e2 : (((m + 1 : Nat) : Int) * (n : Int)).toNat = m * n + n := by
      rw [show ((m + 1 : Nat) : Int) * (n : Int) = ((m * n + n : Nat) : Int) by push_cast; ring]
      exact Int.toNat_natCast _
    have e3 : (((m : Nat) : Int) * (n : Int)).toNat = m * n := by
      rw [show ((m : Nat) : Int) * (n : Int) = ((m * n : Nat) : Int) by push_cast; ring]
      exact Int.toNat_natCast _
    rw [e2, e3, List.range_add, List.map_append, List.map_map]
    simp

/-- **C57** (reducing all dims): for an associative operation with the initial value as identity (sum, all,
any, min, max), the scalar obtained by reducing one dim after the other is the combination of all elements of the
variable, each once and in row-major order. Broadcast inputs are no exception here: the innermost dim is
reduced first. -/
theorem C57_reduce_all (op : V → V → V) (init : V) (hassoc : ∀ x y z, op (op x y) z = op x (op y z))
    (hidr : ∀ x, op x init = x) (hidl : ∀ x, op init x = x) (x : Operand V) (f : Int → V) (hg : GoodOperand x) (hf : x.buf = some f)
    (v : V) (h : ReduceAllDims op init x (.ok v)) :
    v = ((intRange 0 (Dims.volume x.view.dims)).map (fun k => f (x.view.addr (coordsOf x.view.dims k)))).foldl op init := by
  generalize hr : (Except.ok v : Except Err V) = r at h
  induction h generalizing f with
  | scalar h0 hb =>
    rename_i x mem
    injection hr with hr
    rw [hb] at hf
    injection hf with hf
    subst hf
    rw [hr, h0]
    have : x.view.addr (coordsOf ([] : Dims) 0) = x.view.offset := by simp [View.addr, h0, addrAux]
    simp [intRange, Dims.volume, this, hidl]
  | error _ _ => cases hr
  | step hd hred _ ih =>
    rename_i x outer dims inner mem r _
    obtain ⟨hdims, hval, _⟩ := C57_reduce_partial op init x f outer [] inner.1 inner.2 hg hf hd (by
      rintro ⟨pre, n, last, e, _, _, _⟩
      have hnd := hg.1.1.1
      rw [e] at hd
      have e1 := congrArg List.getLast? hd
      simp at e1
      rw [e] at hnd
      simp [labels, List.nodup_append, e1] at hnd) dims mem hred
    rw [List.append_nil] at hdims
    subst hdims
    have hw : WF (dims ++ [inner]) := hd ▸ hg.1.1
    have hwo : WF dims := ⟨((List.sublist_append_left _ _).map Prod.fst).nodup hw.1, fun p hp => hw.2 p (by simp [hp])⟩
    have hin0 : inner.1 ∉ labels dims := by
      have := hw.1
      simp only [labels, List.map_append, List.map_cons, List.map_nil, List.nodup_append] at this
      exact fun h => this.2.2 _ h _ (by simp) rfl
    have := ih mem ⟨fresh_WF hwo, fun hc => hg.2 (by rw [hd]; simp only [View.fresh] at hc; simp [labels] at hc ⊢; exact .inl hc)⟩ rfl hr
    rw [this]
    have hvol : Dims.volume (dims ++ [inner]) = Dims.volume dims * inner.2 := by simp [Dims.volume, List.foldl_append]
    have hn : 0 ≤ inner.2 := hw.2 inner (by simp)
    rw [hd, hvol, intRange_mul (volume_nonneg' hwo) hn]
    rw [List.map_flatMap, List.foldl_map, ← foldl_flatMap_op hassoc hidr]
    apply List.foldl_ext
    intro acc k hk
    simp only [View.fresh] at hk
    rw [mem_intRange] at hk
    congr 1
    have hck := coordsOf_inDims hwo hk.1 hk.2
    rw [fresh_addr]
    simp only [View.fresh]
    rw [hval _ hck, List.map_map, List.foldl_map]
    apply List.foldl_ext
    intro acc' j hj
    rw [mem_intRange] at hj
    simp only [Function.comp]
    congr 2
    simp only [View.addr]
    congr 1
    rw [hd]
    apply addrAux_congr
    have hup : InDims (dims ++ [inner]) (upd (coordsOf dims k) inner.1 j) := by
      intro e m hm
      rcases List.mem_append.1 hm with hm | hm
      · rw [upd_ne (fun he => hin0 (by rw [← he]; exact mem_labels hm))]
        exact hck e m hm
      · simp only [List.mem_singleton] at hm
        subst hm
        rw [upd_same]
        exact hj
    have hpos : position (dims ++ [inner]) (upd (coordsOf dims k) inner.1 j) = k * inner.2 + j := by
      have e1 : position dims (upd (coordsOf dims k) inner.1 j) = k :=
        (position_congr (fun d hd => upd_ne (fun he => hin0 (by rw [← he]; exact hd)))).trans (position_coordsOf hwo hk.1 hk.2)
      simp only [position, List.foldl_append, List.foldl_cons, List.foldl_nil, upd_same] at e1 ⊢
      rw [e1]
    intro e he
    rw [← hpos, coordsOf_position hw.1 hup e he]

/-- **C57** (reducing all dims ends and succeeds), for at most six dims. -/
theorem C57_reduce_all_runs (op : V → V → V) (init : V) (x : Operand V) (f : Int → V) (hg : GoodOperand x) (hf : x.buf = some f)
    (hlen : x.view.dims.length ≤ 6) :
    (∃ r, ReduceAllDims op init x r) ∧ ∀ r, ReduceAllDims op init x r → ∃ v, r = .ok v := by
  have hnb : ∀ (x : Operand V) (outer : Dims) (inner : Dim × Int), GoodOperand x → x.view.dims = outer ++ [inner] →
      ¬ ReducesBroadcast x.view inner.1 := by
    rintro x outer inner hg hd ⟨pre, n, last, e, _, _, _⟩
    have hnd := hg.1.1.1
    rw [e] at hd
    have e1 := congrArg List.getLast? hd
    simp at e1
    rw [e] at hnd
    simp [labels, List.nodup_append, e1] at hnd
  have hgood : ∀ (x : Operand V) (outer : Dims) (inner : Dim × Int) (mem : Int → V), GoodOperand x → x.view.dims = outer ++ [inner] →
      GoodOperand ⟨View.fresh outer, some mem⟩ := by
    intro x outer inner mem hg hd
    have hw : WF (outer ++ [inner]) := hd ▸ hg.1.1
    refine ⟨fresh_WF ⟨((List.sublist_append_left _ _).map Prod.fst).nodup hw.1, fun p hp => hw.2 p (by simp [hp])⟩,
      fun hc => hg.2 ?_⟩
    rw [hd]
    simp only [View.fresh] at hc
    simp [labels] at hc ⊢
    exact .inl hc
  constructor
  · generalize hk : x.view.dims.length = k at hlen
    induction k generalizing x f with
    | zero => exact ⟨_, .scalar (List.length_eq_zero_iff.1 hk) hf⟩
    | succ k ih =>
      obtain ⟨outer, inner, hd⟩ : ∃ outer inner, x.view.dims = outer ++ [inner] := by
        rcases List.eq_nil_or_concat' x.view.dims with h | ⟨o, i, h⟩
        · rw [h] at hk; simp at hk
        · exact ⟨o, i, h⟩
      obtain ⟨⟨r, hr⟩, hall⟩ := C57_reduce_runs_partial op init x outer [] inner.1 inner.2 hg (by simp [hf]) hd (by omega)
        (hnb x outer inner hg hd)
      obtain ⟨dims, mem, rfl⟩ := hall r hr
      obtain ⟨hdims, _⟩ := C57_reduce_partial op init x f outer [] inner.1 inner.2 hg hf hd (hnb x outer inner hg hd) dims mem hr
      rw [List.append_nil] at hdims
      subst hdims
      obtain ⟨r, hr'⟩ := ih ⟨View.fresh dims, some mem⟩ mem (hgood x dims inner mem hg hd) rfl (by
        rw [hd] at hk; simp [View.fresh] at hk ⊢; exact hk) (by omega)
      exact ⟨r, .step hd hr hr'⟩
  · intro r hr
    induction hr generalizing f with
    | scalar _ _ => exact ⟨_, rfl⟩
    | error hd hred =>
      rename_i x outer inner e
      obtain ⟨_, _, h⟩ := (C57_reduce_runs_partial op init x outer [] inner.1 inner.2 hg (by simp [hf]) hd hlen
        (hnb x outer inner hg hd)).2 _ hred
      cases h
    | step hd hred _ ih =>
      rename_i x outer dims inner mem r _
      obtain ⟨hdims, _⟩ := C57_reduce_partial op init x f outer [] inner.1 inner.2 hg hf hd (hnb x outer inner hg hd) dims mem hred
      rw [List.append_nil] at hdims
      subst hdims
      refine ih mem (hgood x dims inner mem hg hd) rfl ?_
      rw [hd] at hlen
      simp [View.fresh] at hlen ⊢
      omega

/-- A 2 x 4 variable with values 0, ..., 7 broadcast to 2 x 3 x 4. -/
def broadcastInput : Operand Int := ⟨⟨[(2, 2), (3, 3), (4, 4)], [4, 0, 1], 0, true⟩, some id⟩

/-- **C57** fails for an input broadcast along the reduced dim: `sum(broadcast(v, [x, y, z]), y)` should give three times
`v`, so 3 at (0, 1). The code merges `y` with `z` and gives 1 there. It also writes beyond the end of the
output (8 elements) and reads beyond the end of the input. -/
theorem C57_wrong_for_broadcast :
    GoodOperand broadcastInput ∧ ReducesBroadcast broadcastInput.view 3 ∧
    ∃ mem : Int → Int, reduceDimView (· + ·) 0 broadcastInput 3 (.ok ([(2, 2), (4, 4)], mem)) ∧
      (intRange 0 3).foldl (fun acc j => acc + broadcastInput.view.addr (upd (fun d => if d = 4 then 1 else 0) 3 j)) 0 = 3 ∧
      mem (position [(2, 2), (4, 4)] (fun d => if d = 4 then 1 else 0)) = 1 ∧ mem 15 = 15 := by
  refine ⟨⟨⟨⟨by decide, by decide⟩, rfl, by decide⟩, by decide⟩, ⟨[(2, 2)], 3, (4, 4), rfl, by simp, by decide, rfl⟩, ?_⟩
  have hs : ∃ m, inPlaceSetup (View.fresh [(2, 2), (4, 4)]) (fun _ : Fin 1 => broadcastInput) =
      .ok ([(2, 2), (3, 3), (4, 4)], m) ∧ hasStrideZero [(2, 2), (3, 3), (4, 4)] m = false ∧
      ∃ calls, m.runBlock (blockFuel 0 24) 0 24 = some calls ∧
      runSteps (fun _ => 0) (calls.map (callInPlaceStep (fun a (b : Fin 1 → Int) => a + b 0)
        (View.fresh [(2, 2), (4, 4)]) (fun _ => broadcastInput))) 1 = 1 ∧
      runSteps (fun _ => 0) (calls.map (callInPlaceStep (fun a (b : Fin 1 → Int) => a + b 0)
        (View.fresh [(2, 2), (4, 4)]) (fun _ => broadcastInput))) 15 = 15 :=
    ⟨_, rfl, by decide, _, rfl, by decide, by decide⟩
  obtain ⟨m, h1, h2, calls, h3, h4, h5⟩ := hs
  refine ⟨_, ?_, by decide, h4, h5⟩
  have he : erase broadcastInput.view.dims 3 = .ok [(2, 2), (4, 4)] := rfl
  have hov : (List.finRange 1).any (fun _ => Operand.overlaps (View.fresh [(2, 2), (4, 4)]) broadcastInput) = false := rfl
  simp only [reduceDimView, he, accumulateInPlace, TransformInPlace, hov, Bool.false_eq_true, false_and, if_false, h1]
  refine ⟨_, ⟨_, ?_, rfl⟩, rfl⟩
  simp only [transformInPlaceImpl, h2, Bool.false_eq_true, if_false]
  refine ⟨[(0, 24)], [calls.map _], _, IsSplit.whole (by decide), ?_, .single _, rfl⟩
  simp [h3]

/-! ### concrete cases -/

/-- A transposed 2 x 3 view into a buffer, offset 1. -/
def reduceInput : Operand Int := ⟨⟨[(2, 2), (3, 3)], [1, 2], 1, false⟩, some (fun a => 10 * a)⟩

example : GoodOperand reduceInput ∧ reduceInput.view.dims = [] ++ (2, 2) :: [(3, 3)] ∧ ¬ ReducesBroadcast reduceInput.view 2 ∧
    reduceInput.view.dims.length ≤ 6 := by
  refine ⟨⟨⟨⟨by decide, by decide⟩, rfl, by decide⟩, by decide⟩, rfl, ?_, by decide⟩
  rintro ⟨pre, n, last, h, hne, _⟩
  have := congrArg List.length h
  cases pre with
  | nil => exact hne rfl
  | cons p pre => simp [reduceInput] at this

/-- The sum over the outer dim exists and is `[10*1 + 10*2, 10*3 + 10*4, 10*5 + 10*6]`. -/
example : ∃ mem : Int → Int, reduceDimView (· + ·) 0 reduceInput 2 (.ok ([(3, 3)], mem)) ∧ mem 0 = 30 ∧ mem 1 = 70 ∧ mem 2 = 110 := by
  have hg : GoodOperand reduceInput := ⟨⟨⟨by decide, by decide⟩, rfl, by decide⟩, by decide⟩
  have hz : ¬ ReducesBroadcast reduceInput.view 2 := by
    rintro ⟨pre, n, last, h, hne, _⟩
    have := congrArg List.length h
    cases pre with
    | nil => exact hne rfl
    | cons p pre => simp [reduceInput] at this
  obtain ⟨⟨r, hr⟩, hall⟩ := C57_reduce_runs_partial (· + ·) 0 reduceInput [] [(3, 3)] 2 2 hg (by simp [reduceInput]) rfl (by decide) hz
  obtain ⟨dims, mem, rfl⟩ := hall r hr
  obtain ⟨rfl, hv, _⟩ := C57_reduce_partial (· + ·) 0 reduceInput _ [] [(3, 3)] 2 2 hg rfl rfl hz dims mem hr
  have key : ∀ i : Int, 0 ≤ i → i < 3 → mem i = (intRange 0 2).foldl (fun acc j => acc + 10 * (reduceInput.view.addr
      (upd (fun _ => i) 2 j))) 0 := by
    intro i h0 h1
    have := hv (fun _ => i) (by
      intro d n hm
      simp only [List.nil_append, List.mem_singleton, Prod.mk.injEq] at hm
      rw [hm.2]
      exact ⟨h0, h1⟩)
    simpa [position] using this
  refine ⟨mem, hr, ?_, ?_, ?_⟩
  · rw [key 0 (by decide) (by decide)]; decide
  · rw [key 1 (by decide) (by decide)]; decide
  · rw [key 2 (by decide) (by decide)]; decide

/-- Summing all elements of the broadcast input works: 3 * (0 + ... + 7). -/
example : ReduceAllDims (· + ·) 0 broadcastInput (.ok 84) := by
  obtain ⟨⟨r, hr⟩, hall⟩ := C57_reduce_all_runs (· + ·) 0 broadcastInput id
    ⟨⟨⟨by decide, by decide⟩, rfl, by decide⟩, by decide⟩ rfl (by decide)
  obtain ⟨v, rfl⟩ := hall r hr
  have := C57_reduce_all (· + ·) 0 (fun x y z => by ring) (by simp) (by simp) broadcastInput id
    ⟨⟨⟨by decide, by decide⟩, rfl, by decide⟩, by decide⟩ rfl v hr
  rw [show v = 84 from this.trans (by decide)] at hr
  exact hr

example := C57_reduce_missing_dim (· + ·) 0 reduceInput 7 (by decide) (.error .dimension)

end Scipp.Props
