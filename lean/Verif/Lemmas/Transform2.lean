import Verif.Lemmas.Transform
/-!
Lemmas about in-place operations.
-/
namespace Scipp
open Sizes
variable {V : Type} {N : Nat}

theorem extract_zero' : ∀ (L : List (Int × Vec N)), L ≠ [] →
    extractIndices 0 (dimSizes L) = L.map (fun _ => 0)
  | [], h => absurd rfl h
  | [p], _ => by simp [dimSizes, extractIndices]
  | p :: q :: L, _ => by
    have := extract_zero' (q :: L) (by simp)
    simp only [dimSizes, List.map_cons] at this ⊢
    simp only [extractIndices]
    split <;> simp [this]

theorem flatVec_zero : ∀ (L : List (Int × Vec N)), flatVec L (L.map (fun _ => 0)) = 0
  | [] => by simp [flatVec]
  | p :: L => by
    simp only [List.map_cons, flatVec, zero_smul, zero_add]
    exact flatVec_zero L

theorem make_setIndex_zero {dims : Dims} {st : Fin N → List Int} {m : MultiIndex N}
    (h : MultiIndex.make dims st = .ok m) : m.setIndex 0 = m := by
  simp only [MultiIndex.make, bind, Except.bind] at h
  split at h
  · simp at h
  · rename_i ds _
    injection h with h
    subst h
    have hne : (if ds = [] then [(0, 0)] else ds) ≠ [] := by split <;> simp_all
    generalize (if ds = [] then [(0, 0)] else ds) = L at hne
    simp only [MultiIndex.setIndex, extract_zero' L hne, flatVec_zero]

theorem flattenLoop_ok {nf : Int} {cap : Nat} : ∀ (rest : List (Int × Vec N)) (sfc : Vec N)
    (out : List (Int × Vec N)), out.length + rest.length ≤ cap → ∃ ds, flattenLoopMI nf cap rest sfc out = .ok ds
  | [], sfc, out, _ => ⟨_, rfl⟩
  | (size, st) :: rest, sfc, out, h => by
    simp only [List.length_cons] at h
    simp only [flattenLoopMI]
    rw [if_neg (by omega)]
    split
    · cases out with
      | nil => exact flattenLoop_ok rest _ _ (by simp at h ⊢; omega)
      | cons e out =>
        simp only
        split
        · exact flattenLoop_ok rest _ _ (by simp at h ⊢; omega)
        · exact flattenLoop_ok rest _ _ (by simp at h ⊢; omega)
    · exact flattenLoop_ok rest _ _ (by simp; omega)

/-- Up to six dims the constructor succeeds. -/
theorem MultiIndex.make_ok {dims : Dims} {strides : Fin N → List Int} (h : dims.length ≤ 6) :
    ∃ m, MultiIndex.make dims strides = .ok m := by
  obtain ⟨ds, hds⟩ := flattenLoop_ok (nf := 0) (cap := ndimOpMax) (readDims dims strides).reverse 0 []
    (by simp [ndimOpMax, readDims_length, h])
  simp only [MultiIndex.make, flattenDims, hds]
  exact ⟨_, rfl⟩

/-- In a view without shared elements, a dim with stride zero has extent one. -/
theorem Distinct_zero_stride {v : View} (hw : v.WF) (hd : v.Distinct) (hp : ∀ p ∈ v.dims, 0 < p.2) {n : Int}
    (h : (n, 0) ∈ (shape v.dims).zip v.strides) : n = 1 := by
  obtain ⟨dims, st, off, ro⟩ := v
  simp only at hp h
  obtain ⟨hw1, hw2, _⟩ := hw
  simp only at hw1 hw2
  obtain ⟨j, hj, he⟩ := List.mem_iff_getElem.1 h
  simp only [List.length_zip, shape, List.length_map, lt_inf_iff] at hj
  simp only [List.getElem_zip, shape, List.getElem_map, Prod.mk.injEq] at he
  by_contra hne
  have hmem : dims[j] ∈ dims := List.getElem_mem _
  have h2 : 2 ≤ n := by have := hp _ hmem; rw [he.1] at this; omega
  have hsplit : dims = dims.take j ++ dims[j] :: dims.drop (j + 1) := by simp
  have hsplit2 : st = st.take j ++ st[j] :: st.drop (j + 1) := by simp
  have hin : ∀ x, x = 0 ∨ x = 1 → InDims dims (upd (fun _ => 0) dims[j].1 x) := by
    intro x hx d m hm
    have hpm := hp _ hm
    simp only at hpm
    simp only [upd]
    split
    · rename_i hd'
      have : dims[j] = (d, m) := List.inj_on_of_nodup_map hw1.1 hmem hm hd'.symm
      rw [this] at he
      simp only at he
      omega
    · omega
  have hz : ∀ x, addrAux dims st (upd (fun _ => 0) dims[j].1 x) = addrAux dims st (fun _ => 0) := by
    intro x
    have hn : (labels dims).Nodup := hw1.1
    rw [hsplit] at hn
    simp only [labels, List.map_append, List.map_cons] at hn
    have hn2 := List.nodup_middle.1 hn
    simp only [List.nodup_cons, List.mem_append, not_or] at hn2
    have hz1 : dims[j].1 ∉ labels (dims.take j) := hn2.1.1
    have hz2 : dims[j].1 ∉ labels (dims.drop (j + 1)) := hn2.1.2
    have hl : (st.take j).length = (dims.take j).length := by simp [hw2]
    generalize dims[j] = e at *
    generalize dims.take j = A at *
    generalize dims.drop (j + 1) = B at *
    generalize st.take j = S at *
    generalize st.drop (j + 1) = S' at *
    generalize st[j] = y at *
    subst hsplit hsplit2
    obtain ⟨rfl, rfl⟩ := he
    rw [addrAux_append hl, addrAux_append hl, addrAux_cons, addrAux_cons, addrAux_upd hz1, addrAux_upd hz2]
    ring
  have := hd (upd (fun _ => 0) dims[j].1 0) (upd (fun _ => 0) dims[j].1 1) (hin 0 (.inl rfl)) (hin 1 (.inr rfl))
    (by simp only [View.addr]; rw [hz, hz]) dims[j].1 (mem_labels (x := dims[j].2) hmem)
  simp [upd] at this

/-- With a first operand without shared elements, the pattern that `flatten_dims` gets wrong does not
occur. -/
theorem noZeroRun_of_distinct {v : View} (hw : v.WF) (hd : v.Distinct) (hp : ∀ p ∈ v.dims, 0 < p.2)
    (inputs : Fin N → List Int) :
    NoZeroRun 1 (readDims v.dims (Fin.cons v.strides inputs : Fin (N + 1) → List Int)).reverse := by
  have hst : ∀ q ∈ readDims v.dims (Fin.cons v.strides inputs : Fin (N + 1) → List Int), q.2 0 = 0 → q.1 = 1 := by
    intro q hq h0
    have h1 : (q.1, q.2 0) ∈ (shape v.dims).zip v.strides := by
      have := readDims_map 0 v.dims (Fin.cons v.strides inputs : Fin (N + 1) → List Int) (by simpa using hw.2.1)
      simp only [Fin.cons_zero] at this
      rw [← this]
      exact List.mem_map.2 ⟨q, hq, rfl⟩
    rw [h0] at h1
    exact Distinct_zero_stride hw hd hp h1
  generalize readDims v.dims (Fin.cons v.strides inputs : Fin (N + 1) → List Int) = F at hst
  cases hF : F.reverse with
  | nil => trivial
  | cons p rest =>
    right
    intro q hq
    have hm : q ∈ rest := List.mem_of_mem_take ((List.takeWhile_sublist _).subset hq)
    have hz := List.all_takeWhile (p := fun q : Int × Vec (N + 1) => decide (q.2 = 0)) (l := rest.take (rest.length - 1))
    have := List.all_eq_true.1 hz q hq
    simp only [decide_eq_true_eq] at this
    have hmem : q ∈ F := by
      have : q ∈ F.reverse := by rw [hF]; exact List.mem_cons_of_mem _ hm
      simpa using this
    exact hst q hmem (by rw [this]; rfl)

theorem runBlock_empty (m : MultiIndex N) (b : Int) (fuel : Nat) : m.runBlock (fuel + 1) b b = some [] := by
  simp [MultiIndex.runBlock, MultiIndex.run]

theorem volume_nonneg' {dims : Dims} (hw : WF dims) : 0 ≤ Dims.volume dims := by
  by_contra h
  have := (volume_nonneg hw.2)
  omega

/-- Blocks of an in-place operation whose first operand has no shared elements. -/
theorem block_distinct {v : View} (hw : v.WF) (hd : v.Distinct) (inputs : Fin N → List Int)
    (hl : ∀ i, (inputs i).length = v.dims.length) {m : MultiIndex (N + 1)}
    (h : MultiIndex.make v.dims (Fin.cons v.strides inputs) = .ok m) (b e : Int) (h0 : 0 ≤ b) (hbe : b ≤ e)
    (hev : e ≤ Dims.volume v.dims) :
    m.runBlock (blockFuel b e) b e = some ((intRange b e).map
      (fun k i => addrAux v.dims ((Fin.cons v.strides inputs : Fin (N + 1) → List Int) i) (coordsOf v.dims k))) := by
  rw [← wantedCalls_eq]
  by_cases hlt : b = e
  · subst hlt
    rw [blockFuel, runBlock_empty]; simp [Props.wantedCalls]
  have hp := allPos_of_lt hw.1.2 h0 (by omega : b < Dims.volume v.dims)
  refine Props.C11_block_partial v.dims _ m b e hw.1 ?_ h (noZeroRun_of_distinct hw hd hp inputs) h0 hbe hev _
    (by simp only [blockFuel]; omega)
  intro i
  refine Fin.cases ?_ (fun j => ?_) i
  · simpa using hw.2.1
  · simpa using hl j

/-- The strides of a view for its own dims. -/
theorem map_strideOf_self {s : Dims} {st : List Int} (hl : st.length = s.length) (hs : (labels s).Nodup) :
    (labels s).map (strideOf s st) = st := by
  induction s generalizing st with
  | nil => cases st <;> simp_all
  | cons p s ih => cases st with
    | nil => simp at hl
    | cons x st =>
      simp only [labels_cons, List.nodup_cons] at hs
      simp only [labels_cons, List.map_cons, strideOf, if_true]
      congr 1
      have := ih (by simpa using hl) hs.2
      conv_rhs => rw [← this]
      apply List.map_congr_left
      intro d hd
      show (if p.1 = d then x else strideOf s st d) = _
      rw [if_neg]
      intro he
      exact hs.1 (he ▸ hd)

/-- All calls of an in-place operation are executed, in some order. -/
theorem transformInPlaceImpl_perm {op : V → (Fin N → V) → V} {out : View} {ins : Fin N → Operand V}
    (hw : out.WF) (hd : out.Distinct) (inputs : Fin N → List Int)
    (hl : ∀ i, (inputs i).length = out.dims.length) {m : MultiIndex (N + 1)}
    (h : MultiIndex.make out.dims (Fin.cons out.strides inputs) = .ok m) {mem mem' : Int → V}
    (hr : transformInPlaceImpl op out ins out.dims m mem mem') :
    ∃ sched : List (Step V), sched.Perm ((intRange 0 (Dims.volume out.dims)).map (fun k =>
        callInPlaceStep op out ins (fun i => addrAux out.dims
          ((Fin.cons out.strides inputs : Fin (N + 1) → List Int) i) (coordsOf out.dims k)))) ∧
      mem' = runSteps mem sched := by
  have hb := block_distinct hw hd inputs hl h
  simp only [transformInPlaceImpl] at hr
  split at hr
  · obtain ⟨calls, hc, rfl⟩ := hr
    have hv := volume_nonneg' hw.1
    have := hb 0 (Dims.volume out.dims) (le_refl _) hv (le_refl _)
    rw [MultiIndex.runBlock, make_setIndex_zero h, hc] at this
    injection this with this
    refine ⟨_, ?_, rfl⟩
    rw [this, List.map_map]
    rfl
  · refine hr.perm ?_
    intro b e h0 hbe hev
    rw [hb b e h0 hbe hev]
    simp

/-- Effect of an in-place operation if every operand is in another buffer, or refers to the
element being written, or there is just one element. -/
theorem inPlace_effect {op : V → (Fin N → V) → V} {out : View} {ins : Fin N → Operand V}
    (hw : out.WF) (hd : out.Distinct) (hwi : ∀ i, (ins i).view.WF)
    (hin : ∀ i, ∀ p ∈ (ins i).view.dims, p ∈ out.dims)
    (hloc : Dims.volume out.dims ≤ 1 ∨ ∀ i, (ins i).buf.isSome ∨ ∀ c, (ins i).view.addr c = out.addr c)
    {m : MultiIndex (N + 1)}
    (h : MultiIndex.make out.dims (Fin.cons out.strides
      (fun i => (labels out.dims).map (strideOf (ins i).view.dims (ins i).view.strides))) = .ok m)
    {mem mem' : Int → V} (hr : transformInPlaceImpl op out ins out.dims m mem mem') :
    (∀ c, InDims out.dims c → mem' (out.addr c) =
      op (mem (out.addr c)) (fun i => (ins i).read mem ((ins i).view.addr c))) ∧
    ∀ a, (∀ c, InDims out.dims c → out.addr c ≠ a) → mem' a = mem a := by
  obtain ⟨sched, hperm, rfl⟩ := transformInPlaceImpl_perm hw hd _ (by intro i; simp [labels]) h hr
  have hg : ∀ k, callInPlaceStep op out ins (fun i => addrAux out.dims
          ((Fin.cons out.strides (fun i => (labels out.dims).map
            (strideOf (ins i).view.dims (ins i).view.strides)) : Fin (N + 1) → List Int) i) (coordsOf out.dims k)) =
        (⟨out.addr (coordsOf out.dims k), fun mem => op (mem (out.addr (coordsOf out.dims k)))
          (fun i => (ins i).read mem ((ins i).view.addr (coordsOf out.dims k)))⟩ : Step V) := by
    intro k
    simp only [callInPlaceStep, Fin.cons_zero, Fin.cons_succ, View.addr]
    congr 1
    funext mem
    congr 1
    funext i
    rw [addrAux_broadcast _ (hwi i).2.1 (hwi i).1.1 hw.1.1 (labels_subset (hin i))]
  simp only [hg] at hperm
  have hmemS : ∀ s ∈ sched, ∃ k, 0 ≤ k ∧ k < Dims.volume out.dims ∧
      s = ⟨out.addr (coordsOf out.dims k), fun mem => op (mem (out.addr (coordsOf out.dims k)))
          (fun i => (ins i).read mem ((ins i).view.addr (coordsOf out.dims k)))⟩ := by
    intro s hs
    have := hperm.mem_iff.1 hs
    simp only [List.mem_map, mem_intRange] at this
    obtain ⟨k, ⟨hk1, hk2⟩, rfl⟩ := this
    exact ⟨k, hk1, hk2, rfl⟩
  have hnd : (sched.map Step.cell).Nodup := by
    have h1 := hperm.map Step.cell
    rw [h1.nodup_iff, List.map_map]
    refine (nodup_intRange _ _).map_on ?_
    intro k hk k' hk' he
    rw [mem_intRange] at hk hk'
    simp only [Function.comp] at he
    have h1 := hd _ _ (coordsOf_inDims hw.1 hk.1 hk.2) (coordsOf_inDims hw.1 hk'.1 hk'.2) he
    rw [← position_coordsOf hw.1 hk.1 hk.2, ← position_coordsOf hw.1 hk'.1 hk'.2]
    exact position_congr h1
  constructor
  · intro c hc
    have hpb := position_bounds hc
    have hco := coordsOf_position hw.1.1 hc
    have haddr : out.addr (coordsOf out.dims (position out.dims c)) = out.addr c := by
      simp only [View.addr]; rw [addrAux_congr hco]
    have hadi : ∀ i, (ins i).view.addr (coordsOf out.dims (position out.dims c)) = (ins i).view.addr c := by
      intro i
      simp only [View.addr]
      rw [addrAux_congr (fun d hd' => hco d (labels_subset (hin i) d hd'))]
    have hmem : (⟨out.addr c, fun mem => op (mem (out.addr c))
          (fun i => (ins i).read mem ((ins i).view.addr c))⟩ : Step V) ∈ sched := by
      rw [hperm.mem_iff]
      simp only [List.mem_map, mem_intRange]
      refine ⟨position out.dims c, hpb, ?_⟩
      simp only [haddr, hadi]
    rcases hloc with h1 | hloc
    · -- a single element
      have hlen : sched.length = 1 := by
        have := hperm.length_eq
        simp [intRange] at this
        omega
      obtain ⟨s, rfl⟩ := List.length_eq_one_iff.1 hlen
      simp only [List.mem_singleton] at hmem
      subst hmem
      simp [runSteps]
    · refine runSteps_cell (T := sched.map Step.cell) (l := sched) (mem := mem) hnd
        (fun s hs => List.mem_map_of_mem hs) ?_ _ hmem
      intro s hs m m' hcell _
      obtain ⟨k, hk0, hk1, rfl⟩ := hmemS s hs
      simp only at hcell ⊢
      rw [hcell]
      congr 1
      funext i
      rcases hloc i with hb | ha
      · obtain ⟨f, hf⟩ := Option.isSome_iff_exists.1 hb
        simp [Operand.read, hf]
      · simp only [Operand.read, ha]
        cases (ins i).buf with
        | some f => rfl
        | none => exact hcell
  · intro a ha
    apply runSteps_other
    intro hmem
    obtain ⟨s, hs, rfl⟩ := List.mem_map.1 hmem
    obtain ⟨k, hk0, hk1, rfl⟩ := hmemS s hs
    exact ha _ (coordsOf_inDims hw.1 hk0 hk1) rfl

/-- The setup iterates over the dims of the output. -/
theorem inPlaceSetup_eq {out : View} {ins : Fin N → Operand V} (hw : out.WF) (hi : Dim.invalid ∉ labels out.dims)
    (hwi : ∀ i, (ins i).view.WF) (hin : ∀ i, ∀ p ∈ (ins i).view.dims, p ∈ out.dims) :
    inPlaceSetup out ins = (MultiIndex.make out.dims (Fin.cons out.strides
        (fun i => (labels out.dims).map (strideOf (ins i).view.dims (ins i).view.strides)))).map
          (fun m => (out.dims, m)) := by
  simp only [inPlaceSetup]
  rw [mergeAll_of_includes hw.1 hi (by
    intro b hb
    obtain ⟨i, _, rfl⟩ := List.mem_map.1 hb
    exact ⟨(hwi i).1, hin i⟩)]
  simp only [bind, Except.bind]
  rw [asViewStrides_eq hw hw.1.1 (fun p hp => hp), map_strideOf_self hw.2.1 hw.1.1]
  simp only
  rw [allStrides_eq hw.1.1 hwi hin]
  simp only
  cases MultiIndex.make out.dims (Fin.cons out.strides
        (fun i => (labels out.dims).map (strideOf (ins i).view.dims (ins i).view.strides))) <;> rfl

/-- The calls of an in-place operation in serial order. -/
def serialSteps (op : V → (Fin N → V) → V) (out : View) (ins : Fin N → Operand V) : List (Step V) :=
  (intRange 0 (Dims.volume out.dims)).map (fun k =>
        callInPlaceStep op out ins (fun i => addrAux out.dims
          ((Fin.cons out.strides (fun i => (labels out.dims).map
            (strideOf (ins i).view.dims (ins i).view.strides)) : Fin (N + 1) → List Int) i) (coordsOf out.dims k)))

/-- Without overlap there is a run, executing the calls in serial order. -/
theorem TransformInPlace_serial {op : V → (Fin N → V) → V} {out : View} {ins : Fin N → Operand V} (hw : out.WF)
    (hd : out.Distinct) (hi : Dim.invalid ∉ labels out.dims)
    (hwi : ∀ i, (ins i).view.WF) (hin : ∀ i, ∀ p ∈ (ins i).view.dims, p ∈ out.dims) (hc : out.dims.length ≤ 6)
    (hno : ((List.finRange N).any fun i => Operand.overlaps out (ins i)) = false) (mem : Int → V) :
    TransformInPlace op out ins mem (.ok (runSteps mem (serialSteps op out ins))) := by
  simp only [TransformInPlace]
  rw [if_neg (by simp [hno]), if_neg (by simp [hno]), inPlaceSetup_eq hw hi hwi hin]
  obtain ⟨m, hm⟩ := MultiIndex.make_ok (strides := (Fin.cons out.strides (fun i => (labels out.dims).map
    (strideOf (ins i).view.dims (ins i).view.strides)) : Fin (N + 1) → List Int)) hc
  rw [hm]
  refine ⟨_, ?_, rfl⟩
  have hb := block_distinct hw hd _ (by intro i; simp [labels]) hm
  have hv := volume_nonneg' hw.1
  simp only [transformInPlaceImpl]
  split
  · have := hb 0 (Dims.volume out.dims) (le_refl _) hv (le_refl _)
    rw [MultiIndex.runBlock, make_setIndex_zero hm] at this
    exact ⟨_, this, by simp [serialSteps, Function.comp_def]⟩
  · refine ParallelFor.exists hv (g := fun k =>
        callInPlaceStep op out ins (fun i => addrAux out.dims
          ((Fin.cons out.strides (fun i => (labels out.dims).map
            (strideOf (ins i).view.dims (ins i).view.strides)) : Fin (N + 1) → List Int) i) (coordsOf out.dims k))) mem ?_
    intro b e h0 hbe hev
    rw [hb b e h0 hbe hev]
    simp

/-! ### memory bounds -/

theorem memoryBounds_fold : ∀ (l : List (Int × Int)) (b : Int × Int), (∀ p ∈ l, 0 ≤ p.2) →
    l.foldl (fun (b : Int × Int) p =>
      if p.2 < 0 then (b.1 + p.1 * p.2, b.2) else (b.1, b.2 + p.1 * p.2)) b =
    (b.1, b.2 + (l.map (fun p => p.1 * p.2)).sum)
  | [], b, _ => by simp
  | p :: l, b, h => by
    have h0 := h p (by simp)
    simp only [List.foldl_cons]
    rw [if_neg (by omega), memoryBounds_fold l _ (fun q hq => h q (List.mem_cons_of_mem _ hq))]
    simp [add_assoc]

theorem le_sum_of_nonneg {l : List Int} (h : ∀ x ∈ l, 0 ≤ x) : 0 ≤ l.sum ∧ ∀ x ∈ l, x ≤ l.sum := by
  induction l with
  | nil => simp
  | cons y l ih =>
    obtain ⟨h1, h2⟩ := ih (fun x hx => h x (List.mem_cons_of_mem _ hx))
    have h0 := h y (by simp)
    refine ⟨by simp; omega, fun x hx => ?_⟩
    rcases List.mem_cons.1 hx with rfl | hx
    · simp; omega
    · have := h2 x hx; simp; omega

theorem memoryBounds_eq {v : View} (hw : v.WF) :
    (memoryBounds (shape v.dims) v.strides).1 = 0 ∧
    ((∀ p ∈ v.dims, 0 < p.2) → (v.dims = [] ∨ ∃ s ∈ v.strides, s ≠ 0) →
      0 < (memoryBounds (shape v.dims) v.strides).2) := by
  have hz : ∀ p ∈ (shape v.dims).zip v.strides, 0 ≤ p.2 := by
    intro p hp
    exact hw.2.2 _ (List.of_mem_zip hp).2
  simp only [memoryBounds]
  rw [memoryBounds_fold _ _ hz]
  constructor
  · split <;> rfl
  · intro hpos hne
    split
    · simp
    · rename_i hsh
      simp only [zero_add]
      have hs : ∃ s ∈ v.strides, s ≠ 0 := by
        rcases hne with h | h
        · rw [h] at hsh; simp [shape] at hsh
        · exact h
      obtain ⟨s, hs, hs0⟩ := hs
      obtain ⟨j, hj, rfl⟩ := List.mem_iff_getElem.1 hs
      have hlen : v.strides.length = v.dims.length := hw.2.1
      have hmem : ((shape v.dims)[j]'(by simp [shape]; omega), v.strides[j]) ∈ (shape v.dims).zip v.strides := by
        refine List.mem_iff_getElem.2 ⟨j, by simp [shape]; omega, by simp⟩
      have hshp : ∀ n ∈ shape v.dims, 0 < n := by
        intro n hn
        simp only [shape, List.mem_map] at hn
        obtain ⟨p, hp, rfl⟩ := hn
        exact hpos p hp
      have hterm : ∀ x ∈ ((shape v.dims).zip v.strides).map (fun p => p.1 * p.2), 0 ≤ x := by
        intro x hx
        obtain ⟨p, hp, rfl⟩ := List.mem_map.1 hx
        exact Int.mul_nonneg (Int.le_of_lt (hshp _ (List.of_mem_zip hp).1)) (hz p hp)
      have h1 := (le_sum_of_nonneg hterm).2 _ (List.mem_map_of_mem (f := fun p => p.1 * p.2) hmem)
      have h2 : 0 < (shape v.dims)[j]'(by simp [shape]; omega) * v.strides[j] := by
        apply Int.mul_pos
        · exact hshp _ (List.getElem_mem _)
        · have := hw.2.2 _ hs; omega
      simp only at h1
      omega

/-- A view without shared elements and with all strides zero has at most one element. -/
theorem volume_of_zero_strides {v : View} (hw : v.WF) (hd : v.Distinct) (hp : ∀ p ∈ v.dims, 0 < p.2)
    (hz : ∀ s ∈ v.strides, s = 0) : Dims.volume v.dims = 1 := by
  have h1 : ∀ p ∈ v.dims, p.2 = 1 := by
    intro p hpm
    obtain ⟨j, hj, rfl⟩ := List.mem_iff_getElem.1 hpm
    have hlen : v.strides.length = v.dims.length := hw.2.1
    refine Distinct_zero_stride hw hd hp (List.mem_iff_getElem.2 ⟨j, by simp [shape]; omega, ?_⟩)
    simp only [List.getElem_zip, shape, List.getElem_map]
    rw [hz _ (List.getElem_mem (by omega : j < v.strides.length))]
  generalize v.dims = s at h1
  induction s with
  | nil => simp
  | cons p s ih =>
    rw [volume_cons, ih (fun q hq => h1 q (List.mem_cons_of_mem _ hq)), h1 p (by simp)]
    simp

end Scipp
