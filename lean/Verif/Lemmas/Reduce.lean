import Verif.Lemmas.Transform2
import Mathlib.Data.List.TakeWhile
/-!
Lemmas about accumulation: in-place operations whose output lacks dims of the operands.
-/
namespace Scipp
open Sizes
variable {V : Type} {N : Nat}

/-- Executing updates one after the other: each cell is folded over its updates in order. -/
theorem runSteps_fold (cell : Int → Int) (f : Int → V → V) (a : Int) : ∀ (l : List Int) (mem : Int → V),
    runSteps mem (l.map (fun k => (⟨cell k, fun m => f k (m (cell k))⟩ : Step V))) a =
      (l.filter (fun k => decide (cell k = a))).foldl (fun acc k => f k acc) (mem a)
  | [], _ => rfl
  | k :: l, mem => by
    simp only [List.map_cons, runSteps]
    rw [runSteps_fold cell f a l]
    by_cases h : cell k = a
    · rw [List.filter_cons_of_pos (by simpa using h), List.foldl_cons, ← h, Function.update_self]
    · rw [List.filter_cons_of_neg (by simpa using h), Function.update_of_ne (fun e => h e.symm)]

/-- Strides already written stay. -/
theorem flattenLoop_keeps {nf : Int} {cap : Nat} : ∀ (rest : List (Int × Vec N)) (sfc : Vec N)
    (out L : List (Int × Vec N)), flattenLoopMI nf cap rest sfc out = .ok L →
    ∀ e ∈ out, ∃ e' ∈ L, e'.2 = e.2
  | [], sfc, out, L, h, e, he => by
    simp only [flattenLoopMI] at h
    injection h with h
    exact ⟨e, by rw [← h]; simpa using he, rfl⟩
  | (size, st) :: rest, sfc, out, L, h, e, he => by
    simp only [flattenLoopMI] at h
    split at h
    · cases h
    · split at h
      · cases out with
        | nil => simp at he
        | cons x out =>
          simp only at h
          split at h
          · rcases List.mem_cons.1 he with rfl | he
            · obtain ⟨e', h1, h2⟩ := flattenLoop_keeps rest _ _ L h (e.1 * size, e.2) (by simp)
              exact ⟨e', h1, h2⟩
            · exact flattenLoop_keeps rest _ _ L h e (by simp [he])
          · exact flattenLoop_keeps rest _ _ L h e (List.mem_cons_of_mem _ he)
      · exact flattenLoop_keeps rest _ _ L h e (List.mem_cons_of_mem _ he)

theorem flattenLoop_nonzero {cap : Nat} : ∀ (rest : List (Int × Vec (N + 1))) (sfc : Vec (N + 1))
    (out L : List (Int × Vec (N + 1))), flattenLoopMI 0 cap rest sfc out = .ok L → out ≠ [] → sfc 0 ≠ 0 →
    (∀ p ∈ rest, 0 < p.1) → (∀ e ∈ L, e.2 0 ≠ 0) → ∀ p ∈ rest, p.2 0 ≠ 0
  | [], _, _, _, _, _, _, _, _, p, hp => by simp at hp
  | (size, st) :: rest, sfc, out, L, h, ho, hs, hpos, hL, p, hp => by
    have hkeep := flattenLoop_keeps _ _ _ _ h
    simp only [flattenLoopMI] at h
    split at h
    · cases h
    · have hsz : 0 < size := hpos (size, st) (by simp)
      have hpos' : ∀ p ∈ rest, 0 < p.1 := fun p hp => hpos p (List.mem_cons_of_mem _ hp)
      split at h
      · cases out with
        | nil => exact absurd rfl ho
        | cons x out =>
          simp only at h
          split at h
          · rename_i heq
            have hst : st 0 ≠ 0 := by rw [heq]; exact hs
            rcases List.mem_cons.1 hp with rfl | hp
            · exact hst
            · refine flattenLoop_nonzero rest _ _ L h (by simp) ?_ hpos' hL p hp
              simp only [Pi.smul_apply, smul_eq_mul]
              exact mul_ne_zero (by omega) hst
          · have hst : st 0 ≠ 0 := by
              obtain ⟨e', h1, h2⟩ := flattenLoop_keeps rest _ _ L h (size, st) (by simp)
              have := hL e' h1
              rw [h2] at this
              exact this
            rcases List.mem_cons.1 hp with rfl | hp
            · exact hst
            · refine flattenLoop_nonzero rest _ _ L h (by simp) ?_ hpos' hL p hp
              simp only [Pi.smul_apply, smul_eq_mul]
              exact mul_ne_zero (by omega) hst
      · have hst : st 0 ≠ 0 := by
          obtain ⟨e', h1, h2⟩ := flattenLoop_keeps rest _ _ L h (size, st) (by simp)
          have := hL e' h1
          rw [h2] at this
          exact this
        rcases List.mem_cons.1 hp with rfl | hp
        · exact hst
        · exact flattenLoop_nonzero rest _ _ L h (by simp) hs hpos' hL p hp

theorem flattenLoop_zero {cap : Nat} : ∀ (rest : List (Int × Vec (N + 1)))
    (out L : List (Int × Vec (N + 1))), flattenLoopMI 0 cap rest 0 out = .ok L → out ≠ [] →
    (∀ p ∈ rest, 0 < p.1) → (∀ e ∈ L, e.2 0 ≠ 0) →
    (∀ q ∈ (rest.take (rest.length - 1)).takeWhile (fun q => decide (q.2 = 0)), q.1 = 1) →
    ∀ p ∈ rest, p.2 0 = 0 → p.1 = 1
  | [], _, _, _, _, _, _, _, p, hp => by simp at hp
  | (size, st) :: rest, out, L, h, ho, hpos, hL, hz, p, hp => by
    intro hp0
    simp only [flattenLoopMI] at h
    split at h
    · cases h
    · have hsz : 0 < size := hpos (size, st) (by simp)
      have hpos' : ∀ p ∈ rest, 0 < p.1 := fun p hp => hpos p (List.mem_cons_of_mem _ hp)
      split at h
      · rename_i hrest
        obtain ⟨q, rest', rfl⟩ : ∃ q rest', rest = q :: rest' := by
          cases rest with
          | nil => simp at hrest
          | cons q r => exact ⟨q, r, rfl⟩
        cases out with
        | nil => exact absurd rfl ho
        | cons x out =>
          simp only at h
          split at h
          · rename_i heq
            subst heq
            have e1 : (((size, (0 : Vec (N + 1))) :: q :: rest').take (((size, (0 : Vec (N + 1))) :: q :: rest').length - 1)) =
                (size, 0) :: ((q :: rest').take ((q :: rest').length - 1)) := by
              simp
            rw [e1, List.takeWhile_cons_of_pos (by simp)] at hz
            rcases List.mem_cons.1 hp with rfl | hp
            · exact hz _ (by simp)
            · rw [smul_zero] at h
              exact flattenLoop_zero (q :: rest') _ L h (by simp) hpos' hL
                (fun q hq => hz q (List.mem_cons_of_mem _ hq)) p hp hp0
          · have hst : st 0 ≠ 0 := by
              obtain ⟨e', h1, h2⟩ := flattenLoop_keeps _ _ _ L h (size, st) (by simp)
              have := hL e' h1
              rw [h2] at this
              exact this
            rcases List.mem_cons.1 hp with rfl | hp
            · exact absurd hp0 hst
            · refine absurd hp0 (flattenLoop_nonzero _ _ _ L h (by simp) ?_ hpos' hL p hp)
              simp only [Pi.smul_apply, smul_eq_mul]
              exact mul_ne_zero (by omega) hst
      · rename_i hrest
        have : rest = [] := by
          cases rest with
          | nil => rfl
          | cons q r => simp at hrest
        subst this
        have hst : st 0 ≠ 0 := by
          obtain ⟨e', h1, h2⟩ := flattenLoop_keeps _ _ _ L h (size, st) (by simp)
          have := hL e' h1
          rw [h2] at this
          exact this
        simp only [List.mem_singleton] at hp
        subst hp
        exact absurd hp0 hst

/-- If no flattened dim has stride zero for the output then all dims in which the output has
stride zero have extent 1. -/
theorem extent_one_of_no_stride_zero {dims : Dims} {strides : Fin (N + 1) → List Int} {m : MultiIndex (N + 1)}
    (h : MultiIndex.make dims strides = .ok m) (hz : NoZeroRun 1 (readDims dims strides).reverse)
    (hpos : ∀ p ∈ dims, 0 < p.2) (hne : dims ≠ []) (hs : hasStrideZero dims m = false) :
    ∀ q ∈ readDims dims strides, q.2 0 = 0 → q.1 = 1 := by
  have hposR : ∀ (dims : Dims) (strides : Fin (N + 1) → List Int), (∀ p ∈ dims, 0 < p.2) →
      ∀ q ∈ readDims dims strides, 0 < q.1 := by
    intro dims
    induction dims with
    | nil => intro st _ q hq; simp [readDims] at hq
    | cons p ds ih =>
      intro st hp q hq
      simp only [readDims, List.mem_cons] at hq
      rcases hq with rfl | hq
      · exact hp p (by simp)
      · exact ih _ (fun p hp' => hp p (List.mem_cons_of_mem _ hp')) q hq
  have hpr := hposR dims strides hpos
  have hlen := readDims_length (N := N + 1) dims strides
  simp only [MultiIndex.make, bind, Except.bind] at h
  split at h
  · cases h
  · rename_i ds hds
    injection h with h
    simp only [flattenDims] at hds
    have hrev : ∀ q ∈ (readDims dims strides).reverse, 0 < q.1 := fun q hq => hpr q (by simpa using hq)
    have hne' : (readDims dims strides).reverse ≠ [] := by
      intro e
      have := congrArg List.length e
      simp [hlen] at this
      exact hne this
    have hall : ∀ e ∈ ds, e.2 0 ≠ 0 := by
      have : m.dims = if ds = [] then [(0, 0)] else ds := by rw [← h]
      simp only [hasStrideZero, this] at hs
      intro e he h0
      have hds0 : ds ≠ [] := by rintro rfl; simp at he
      rw [if_neg hds0] at hs
      have h1 : dims.isEmpty = false := by cases dims <;> simp_all
      simp only [h1, Bool.not_false, Bool.true_and] at hs
      have := List.any_eq_false.1 hs e he
      simp [h0] at this
    have hmem : ∀ q ∈ readDims dims strides, q ∈ (readDims dims strides).reverse := fun q hq => by simpa using hq
    generalize (readDims dims strides).reverse = R at hds hz hrev hne' hmem
    intro q hq
    have hq' := hmem q hq
    cases R with
    | nil => exact absurd rfl hne'
    | cons p R =>
      have hstep : flattenLoopMI 0 ndimOpMax R 0 [p] = .ok ds := by
        obtain ⟨size, st⟩ := p
        simp only [flattenLoopMI] at hds
        rw [if_neg (by simp [ndimOpMax])] at hds
        split at hds <;> exact hds
      have hp0 : p.2 0 ≠ 0 := by
        obtain ⟨e', h1, h2⟩ := flattenLoop_keeps _ _ _ _ hstep p (by simp)
        have := hall e' h1
        rw [h2] at this
        exact this
      rcases List.mem_cons.1 hq' with rfl | hq'
      · exact fun h0 => absurd h0 hp0
      · refine flattenLoop_zero R [p] ds hstep (by simp) (fun x hx => hrev x (List.mem_cons_of_mem _ hx)) hall ?_ q hq'
        rcases hz with hz | hz
        · exact absurd (by rw [hz]; rfl) hp0
        · exact hz

theorem mem_readDims {f : Dim → Int} {inputs : Fin N → List Int} : ∀ {dims : Dims} {p : Dim × Int}, p ∈ dims →
    ∀ inputs : Fin N → List Int, ∃ q ∈ readDims dims (Fin.cons ((labels dims).map f) inputs : Fin (N + 1) → List Int),
      q.1 = p.2 ∧ q.2 0 = f p.1
  | [], p, hp, _ => by simp at hp
  | x :: dims, p, hp, inputs => by
    simp only [readDims, labels_cons, List.map_cons]
    rcases List.mem_cons.1 hp with rfl | hp
    · exact ⟨_, List.mem_cons_self, rfl, by simp⟩
    · obtain ⟨q, hq, h1, h2⟩ := mem_readDims (f := f) (inputs := inputs) hp (fun i => (inputs i).tail)
      refine ⟨q, List.mem_cons_of_mem _ ?_, h1, h2⟩
      convert hq using 2
      funext i
      refine Fin.cases ?_ (fun j => ?_) i <;> simp

theorem strideOf_not_mem {s : Dims} {st : List Int} {d : Dim} (h : d ∉ labels s) : strideOf s st d = 0 := by
  induction s generalizing st with
  | nil => simp [strideOf]
  | cons p s ih =>
    simp only [labels_cons, List.mem_cons, not_or] at h
    cases st with
    | nil => simp [strideOf]
    | cons x st =>
      simp only [strideOf]
      rw [if_neg (fun e => h.1 e.symm)]
      exact ih h.2

/-- Effect of an accumulation: every cell is folded, in the order of the dims, over the elements
of the operands that belong to it. -/
theorem accumulate_effect {op : V → (Fin N → V) → V} {out : View} {ins : Fin N → Operand V} {dims : Dims}
    (hw : out.WF) (hd : out.Distinct) (hwi : ∀ i, (ins i).view.WF) (hwd : WF dims)
    (hout : ∀ p ∈ out.dims, p ∈ dims) (hin : ∀ i, ∀ p ∈ (ins i).view.dims, p ∈ dims)
    (hbuf : ∀ i, (ins i).buf.isSome) {m : MultiIndex (N + 1)}
    (h : MultiIndex.make dims (Fin.cons ((labels dims).map (strideOf out.dims out.strides))
      (fun i => (labels dims).map (strideOf (ins i).view.dims (ins i).view.strides))) = .ok m)
    (hz : (∀ p ∈ dims, 0 < p.2) → NoZeroRun 1 (readDims dims (Fin.cons ((labels dims).map (strideOf out.dims out.strides))
      (fun i => (labels dims).map (strideOf (ins i).view.dims (ins i).view.strides)) : Fin (N + 1) → List Int)).reverse)
    {mem mem' : Int → V} (hr : transformInPlaceImpl op out ins dims m mem mem') (a : Int) :
    mem' a = ((intRange 0 (Dims.volume dims)).filter (fun k => decide (out.addr (coordsOf dims k) = a))).foldl
      (fun acc k => op acc (fun i => (ins i).read mem ((ins i).view.addr (coordsOf dims k)))) (mem a) := by
  have hv := volume_nonneg' hwd
  have hg : ∀ k, callInPlaceStep op out ins (fun i => addrAux dims
          ((Fin.cons ((labels dims).map (strideOf out.dims out.strides)) (fun i => (labels dims).map
            (strideOf (ins i).view.dims (ins i).view.strides)) : Fin (N + 1) → List Int) i) (coordsOf dims k)) =
        (⟨out.addr (coordsOf dims k), fun m => (fun k acc => op acc
          (fun i => (ins i).read mem ((ins i).view.addr (coordsOf dims k)))) k (m (out.addr (coordsOf dims k)))⟩ : Step V) := by
    intro k
    simp only [callInPlaceStep, Fin.cons_zero, Fin.cons_succ, View.addr]
    rw [addrAux_broadcast _ hw.2.1 hw.1.1 hwd.1 (labels_subset hout)]
    congr 1
    funext m
    congr 1
    funext i
    rw [addrAux_broadcast _ (hwi i).2.1 (hwi i).1.1 hwd.1 (labels_subset (hin i))]
    obtain ⟨f, hf⟩ := Option.isSome_iff_exists.1 (hbuf i)
    simp [Operand.read, hf]
  have hb : ∀ b e, 0 ≤ b → b ≤ e → e ≤ Dims.volume dims → m.runBlock (blockFuel b e) b e = some ((intRange b e).map
      (fun k i => addrAux dims ((Fin.cons ((labels dims).map (strideOf out.dims out.strides))
      (fun i => (labels dims).map (strideOf (ins i).view.dims (ins i).view.strides)) : Fin (N + 1) → List Int) i) (coordsOf dims k))) := by
    intro b e h0 hbe hev
    rcases eq_or_lt_of_le hbe with rfl | hlt
    · rw [show intRange b b = [] by simp [intRange]]
      exact runBlock_empty m b _
    rw [← wantedCalls_eq]
    refine Props.C11_block_partial dims _ m b e hwd ?_ h (hz (allPos_of_lt hwd.2 h0 (by omega))) h0 hbe hev _
      (by simp only [blockFuel]; omega)
    intro i
    refine Fin.cases ?_ (fun j => ?_) i <;> simp [labels]
  simp only [transformInPlaceImpl] at hr
  by_cases hs : hasStrideZero dims m = true
  · rw [if_pos hs] at hr
    obtain ⟨calls, hc, rfl⟩ := hr
    have := hb 0 (Dims.volume dims) (le_refl _) hv (le_refl _)
    rw [MultiIndex.runBlock, make_setIndex_zero h, hc] at this
    injection this with this
    rw [this, List.map_map]
    have e : (intRange 0 (Dims.volume dims)).map ((callInPlaceStep op out ins) ∘ (fun k i => addrAux dims
        ((Fin.cons ((labels dims).map (strideOf out.dims out.strides))
      (fun i => (labels dims).map (strideOf (ins i).view.dims (ins i).view.strides)) : Fin (N + 1) → List Int) i) (coordsOf dims k))) =
      (intRange 0 (Dims.volume dims)).map (fun k => (⟨out.addr (coordsOf dims k), fun m => (fun k acc => op acc
          (fun i => (ins i).read mem ((ins i).view.addr (coordsOf dims k)))) k (m (out.addr (coordsOf dims k)))⟩ : Step V)) :=
      List.map_congr_left (fun k _ => hg k)
    rw [e]
    exact runSteps_fold (fun k => out.addr (coordsOf dims k)) (fun k acc => op acc
          (fun i => (ins i).read mem ((ins i).view.addr (coordsOf dims k)))) a _ mem
  · rw [if_neg hs] at hr
    obtain ⟨sched, hperm, rfl⟩ := hr.perm (g := fun k => callInPlaceStep op out ins (fun i => addrAux dims
          ((Fin.cons ((labels dims).map (strideOf out.dims out.strides)) (fun i => (labels dims).map
            (strideOf (ins i).view.dims (ins i).view.strides)) : Fin (N + 1) → List Int) i) (coordsOf dims k))) (by
      intro b e h0 hbe hev
      rw [hb b e h0 hbe hev]
      simp)
    simp only [hg] at hperm
    -- different elements belong to different cells
    have hinj : ∀ k k', 0 ≤ k → k < Dims.volume dims → 0 ≤ k' → k' < Dims.volume dims →
        out.addr (coordsOf dims k) = out.addr (coordsOf dims k') → k = k' := by
      intro k k' h0 h1 h0' h1' he
      have hc := coordsOf_inDims hwd h0 h1
      have hc' := coordsOf_inDims hwd h0' h1'
      have hpos := allPos_of_lt hwd.2 h0 h1
      have hsub : ∀ d n, (d, n) ∈ out.dims → (d, n) ∈ dims := fun d n hm => hout _ hm
      have hagree := hd _ _ (fun d n hm => hc d n (hsub d n hm)) (fun d n hm => hc' d n (hsub d n hm)) he
      rw [← position_coordsOf hwd h0 h1, ← position_coordsOf hwd h0' h1']
      refine position_congr (fun d hdm => ?_)
      by_cases hdo : d ∈ labels out.dims
      · exact hagree d hdo
      · obtain ⟨p, hp, rfl⟩ := List.mem_map.1 hdm
        have hne : dims ≠ [] := by rintro rfl; simp at hp
        obtain ⟨q, hq, hq1, hq2⟩ := mem_readDims (f := strideOf out.dims out.strides)
          (inputs := (fun i => (labels dims).map (strideOf (ins i).view.dims (ins i).view.strides))) hp
          (fun i => (labels dims).map (strideOf (ins i).view.dims (ins i).view.strides))
        have h1 := extent_one_of_no_stride_zero h (hz hpos) hpos hne (by simpa using hs) q hq (by rw [hq2, strideOf_not_mem hdo])
        have a1 := hc p.1 p.2 hp
        have a2 := hc' p.1 p.2 hp
        omega
    have hcell : ∀ s ∈ sched, ∃ k, 0 ≤ k ∧ k < Dims.volume dims ∧ s = ⟨out.addr (coordsOf dims k), fun m => (fun k acc => op acc
          (fun i => (ins i).read mem ((ins i).view.addr (coordsOf dims k)))) k (m (out.addr (coordsOf dims k)))⟩ := by
      intro s hs
      have := hperm.mem_iff.1 hs
      obtain ⟨k, hk, rfl⟩ := List.mem_map.1 this
      rw [mem_intRange] at hk
      exact ⟨k, hk.1, hk.2, rfl⟩
    by_cases hex : ∃ k, 0 ≤ k ∧ k < Dims.volume dims ∧ out.addr (coordsOf dims k) = a
    · obtain ⟨k, h0, h1, rfl⟩ := hex
      have hfil : (intRange 0 (Dims.volume dims)).filter (fun k' => decide (out.addr (coordsOf dims k') =
          out.addr (coordsOf dims k))) = [k] := by
        have e1 : (intRange 0 (Dims.volume dims)).filter (fun k' => decide (out.addr (coordsOf dims k') =
          out.addr (coordsOf dims k))) = (intRange 0 (Dims.volume dims)).filter (fun k' => decide (k' = k)) := by
          apply List.filter_congr
          intro k' hk'
          rw [mem_intRange] at hk'
          have : out.addr (coordsOf dims k') = out.addr (coordsOf dims k) ↔ k' = k :=
            ⟨hinj k' k hk'.1 hk'.2 h0 h1, fun e => by rw [e]⟩
          simp [this]
        rw [e1]
        have e3 : (intRange 0 (Dims.volume dims)).filter (fun k' => decide (k' = k)) =
            (intRange 0 (Dims.volume dims)).filter (fun k' => k' == k) := by
          apply List.filter_congr
          intro x _
          rfl
        rw [e3, List.filter_beq, List.count_eq_one_of_mem (nodup_intRange _ _) (mem_intRange.2 ⟨h0, h1⟩)]
        rfl
      rw [hfil]
      simp only [List.foldl_cons, List.foldl_nil]
      have hmem : (⟨out.addr (coordsOf dims k), fun m => (fun k acc => op acc
          (fun i => (ins i).read mem ((ins i).view.addr (coordsOf dims k)))) k (m (out.addr (coordsOf dims k)))⟩ : Step V) ∈ sched := by
        rw [hperm.mem_iff]
        exact List.mem_map.2 ⟨k, mem_intRange.2 ⟨h0, h1⟩, rfl⟩
      refine runSteps_cell (T := sched.map Step.cell) (l := sched) (mem := mem) ?_
        (fun s hs => List.mem_map_of_mem hs) ?_ _ hmem
      · rw [(hperm.map Step.cell).nodup_iff, List.map_map]
        refine (nodup_intRange _ _).map_on ?_
        intro k hk k' hk' he
        rw [mem_intRange] at hk hk'
        exact hinj k k' hk.1 hk.2 hk'.1 hk'.2 he
      · intro s hs m m' hcl _
        obtain ⟨k, hk0, hk1, rfl⟩ := hcell s hs
        simp only at hcl ⊢
        rw [hcl]
    · rw [runSteps_other, List.filter_eq_nil_iff.2]
      · rfl
      · intro k hk
        rw [mem_intRange] at hk
        simp only [decide_eq_true_eq]
        exact fun e => hex ⟨k, hk.1, hk.2, e⟩
      · intro hmem
        obtain ⟨s, hs, rfl⟩ := List.mem_map.1 hmem
        obtain ⟨k, hk0, hk1, rfl⟩ := hcell s hs
        exact hex ⟨k, hk0, hk1, rfl⟩

/-! ### reducing one dim -/

theorem readDims_map_labels : ∀ (dims : Dims) (f : Fin N → Dim → Int),
    readDims dims (fun i => (labels dims).map (f i)) = dims.map (fun p => (p.2, fun i => f i p.1))
  | [], _ => rfl
  | p :: dims, f => by
    simp only [readDims, labels_cons, List.map_cons, List.headD_cons, List.tail_cons]
    rw [readDims_map_labels dims f]

theorem strideOf_split {pre post : Dims} {st : List Int} {d : Dim} {n : Int} (hl : st.length = (pre ++ (d, n) :: post).length)
    (hd : d ∉ labels pre) : strideOf (pre ++ (d, n) :: post) st d = st.getD pre.length 0 := by
  induction pre generalizing st with
  | nil => cases st with
    | nil => simp at hl
    | cons x st => simp [strideOf]
  | cons p pre ih => cases st with
    | nil => simp at hl
    | cons x st =>
      simp only [labels_cons, List.mem_cons, not_or] at hd
      simp only [List.cons_append, strideOf, List.length_cons, List.getD_cons_succ]
      rw [if_neg (fun e => hd.1 e.symm)]
      exact ih (by simpa using hl) hd.2

theorem strideOf_pos {s : Dims} {st : List Int} {d : Dim} (hl : st.length = s.length) (h : d ∈ labels s)
    (hp : ∀ x ∈ st, 0 < x) : 0 < strideOf s st d := by
  induction s generalizing st with
  | nil => simp at h
  | cons p s ih => cases st with
    | nil => simp at hl
    | cons x st =>
      simp only [strideOf]
      split
      · exact hp x (by simp)
      · rename_i hne
        simp only [labels_cons, List.mem_cons] at h
        exact ih (by simpa using hl) (h.resolve_left (fun e => hne e.symm)) (fun y hy => hp y (List.mem_cons_of_mem _ hy))

theorem erase_mid {pre post : Dims} {d : Dim} {n : Int} (hd : d ∉ labels pre) :
    erase (pre ++ (d, n) :: post) d = .ok (pre ++ post) := by
  induction pre with
  | nil => simp [erase]
  | cons p pre ih =>
    simp only [labels_cons, List.mem_cons, not_or] at hd
    simp only [List.cons_append, erase]
    rw [if_neg (fun e => hd.1 e.symm), ih hd.2]
    rfl

theorem merge_sub {a b : Dims} (hs : a.Sublist b) (hb : WF b) (hbi : Dim.invalid ∉ labels b) :
    Dims.merge a b = .ok b := by
  have hls : (labels a).Sublist (labels b) := hs.map Prod.fst
  have ha : WF a := ⟨hls.nodup hb.1, fun p hp => hb.2 p (hs.subset hp)⟩
  have hai : Dim.invalid ∉ labels a := fun h => hbi (hls.subset h)
  obtain ⟨m, hm⟩ := (Props.C02_merge_succeeds_iff a b ha hb hai hbi).2 (by
    intro d x y hx hy
    have h1 := at?_of_mem hb.1 (hs.subset hx)
    have h2 := at?_of_mem hb.1 hy
    rw [h1] at h2
    injection h2)
  rw [hm]
  have hord := (Props.C02_merge_order a b m ha hb hai hbi hm).2 (by
    rw [List.filter_eq_self.2 (fun x hx => by simpa using hls.subset hx)]
    have h1 : ((labels b).filter (· ∈ labels a)).Perm (labels a) := by
      refine (List.perm_ext_iff_of_nodup (hb.1.filter _) ha.1).2 (fun x => ?_)
      simp only [List.mem_filter, decide_eq_true_eq]
      exact ⟨fun h => h.2, fun h => ⟨hls.subset h, h⟩⟩
    have h2 : (labels a).Sublist ((labels b).filter (· ∈ labels a)) := by
      have := hls.filter (· ∈ labels a)
      rwa [List.filter_eq_self.2 (fun x hx => by simpa using hx)] at this
    exact h2.eq_of_length h1.length_eq.symm)
  have hcont := Props.C02_merge_content a b m ha hb hai hbi hm
  have hperm : m.Perm b := by
    refine (List.perm_ext_iff_of_nodup ?_ ?_).2 (fun p => ?_)
    · exact List.Nodup.of_map Prod.fst (Props.C02_merge_nodup a b m hm)
    · exact List.Nodup.of_map Prod.fst hb.1
    · rw [show p = (p.1, p.2) from rfl, hcont]
      exact ⟨fun h => h.elim (fun h => hs.subset h) id, .inr⟩
  rw [hord.eq_of_length hperm.length_eq.symm]

/-- The elements belonging to one cell of the output, in order. -/
theorem reduce_filter {pre post : Dims} {d : Dim} {n : Int} (hw : WF (pre ++ (d, n) :: post)) {c : Dim → Int}
    (hc : InDims (pre ++ post) c) :
    (intRange 0 (Dims.volume (pre ++ (d, n) :: post))).filter (fun k => decide ((View.fresh (pre ++ post)).addr
      (coordsOf (pre ++ (d, n) :: post) k) = position (pre ++ post) c)) =
    (intRange 0 n).map (fun j => position (pre ++ (d, n) :: post) (upd c d j)) := by
  set D := pre ++ (d, n) :: post with hD
  have hnd : (labels D).Nodup := hw.1
  have hsub : (pre ++ post).Sublist D := by
    rw [hD]; exact List.Sublist.append (List.Sublist.refl _) (List.sublist_cons_self _ _)
  have hdn : d ∉ labels (pre ++ post) := by
    have := hnd
    rw [hD] at this
    simp only [labels, List.map_append, List.map_cons, List.nodup_append, List.nodup_cons, List.mem_cons,
      forall_eq_or_imp] at this
    simp only [labels, List.map_append, List.mem_append, not_or]
    exact ⟨fun h => this.2.2 d h |>.1 rfl, this.2.1.1⟩
  have hin : ∀ j, 0 ≤ j → j < n → InDims D (upd c d j) := by
    intro j h0 h1 e m hm
    by_cases he : e = d
    · subst he
      have h2 := at?_of_mem hw.1 hm
      rw [at?_of_mem hw.1 (show (e, n) ∈ D by rw [hD]; simp)] at h2
      injection h2 with h2
      rw [upd_same]
      omega
    · rw [upd_ne he]
      refine hc e m ?_
      rw [hD] at hm
      simp only [List.mem_append, List.mem_cons, Prod.mk.injEq] at hm ⊢
      rcases hm with h | ⟨h, _⟩ | h
      · exact .inl h
      · exact absurd h he
      · exact .inr h
  have hmono : ∀ j j', 0 ≤ j → j < j' → j' < n → position D (upd c d j) < position D (upd c d j') := by
    intro j j' h0 h1 h2
    have hvol := position_bounds (hin j h0 (by omega))
    have hpos := allPos_of_lt hw.2 hvol.1 hvol.2
    have hrp := (rowMajor_pos (shape D) (by
      intro x hx
      simp only [shape, List.mem_map] at hx
      obtain ⟨p, hp, rfl⟩ := hx
      exact hpos p hp)).2
    obtain ⟨spre, x, spost, e1, e2, e3⟩ := split_strides (pre := pre) (p := (d, n)) (post := post)
      (st := rowMajor (shape D)) (by rw [← hD]; simp [shape])
    have hx : 0 < x := hrp x (by rw [e1]; simp)
    have hd1 : d ∉ labels pre := fun h => hdn (by simp [labels] at h ⊢; exact .inl h)
    have hd2 : d ∉ labels post := fun h => hdn (by simp [labels] at h ⊢; exact .inr h)
    rw [position_eq, position_eq, e1, hD, addrAux_mid e2, addrAux_mid e2, upd_same, upd_same,
      addrAux_upd hd1, addrAux_upd hd1, addrAux_upd hd2, addrAux_upd hd2]
    have := Int.mul_lt_mul_of_pos_right h1 hx
    omega
  have hrs : ∀ b e : Int, (intRange b e).Pairwise (· < ·) := by
    intro b e
    rw [intRange, List.pairwise_map]
    exact List.pairwise_lt_range.imp (fun h => by omega)
  have hs1 : ((intRange 0 (Dims.volume D)).filter (fun k => decide ((View.fresh (pre ++ post)).addr
      (coordsOf D k) = position (pre ++ post) c))).Pairwise (· < ·) := (hrs _ _).filter _
  have hs2 : ((intRange 0 n).map (fun j => position D (upd c d j))).Pairwise (· < ·) := by
    rw [List.pairwise_map]
    refine (hrs 0 n).imp_of_mem (fun {a b} ha hb hab => ?_)
    rw [mem_intRange] at ha hb
    exact hmono a b ha.1 hab hb.2
  refine List.Perm.eq_of_pairwise (le := (· < ·)) (fun a b _ _ h1 h2 => by omega) hs1 hs2 ?_
  refine (List.perm_ext_iff_of_nodup (hs1.imp (fun h => by omega)) (hs2.imp (fun h => by omega))).2 (fun k => ?_)
  simp only [List.mem_filter, mem_intRange, decide_eq_true_eq, List.mem_map]
  constructor
  · rintro ⟨⟨h0, h1⟩, h2⟩
    have hck := coordsOf_inDims hw h0 h1
    rw [fresh_addr] at h2
    have hag := position_inj (hnd.sublist (hsub.map Prod.fst)) (fun e m hm => hck e m (hsub.subset hm)) hc h2
    refine ⟨coordsOf D k d, hck d n (by rw [hD]; simp), ?_⟩
    refine Eq.trans (position_congr (fun e he => ?_)) (position_coordsOf hw h0 h1)
    by_cases hed : e = d
    · rw [hed, upd_same]
    · rw [upd_ne hed]
      refine (hag e ?_).symm
      rw [hD] at he
      simp only [labels, List.map_append, List.map_cons, List.mem_append, List.mem_cons] at he ⊢
      rcases he with h | h | h
      · exact .inl h
      · exact absurd h hed
      · exact .inr h
  · rintro ⟨j, ⟨h0, h1⟩, rfl⟩
    have hj := hin j h0 h1
    have hb := position_bounds hj
    refine ⟨hb, ?_⟩
    rw [fresh_addr]
    refine position_congr (fun e he => ?_)
    rw [coordsOf_position hnd hj e ((hsub.map Prod.fst).subset he), upd_ne (fun (h : e = d) => hdn (by rw [← h]; exact he))]

theorem split_unique {pre pre' post post' : Dims} {dim : Dim} {n : Int} {a : Dim × Int}
    (e : pre ++ (dim, n) :: post = pre' ++ a :: post') (h : dim ∉ labels pre) (h' : dim ∉ labels pre') (ha : a.1 = dim) :
    pre = pre' ∧ (dim, n) = a ∧ post = post' := by
  induction pre generalizing pre' with
  | nil =>
    cases pre' with
    | nil => simpa using e
    | cons p pre' =>
      simp only [List.nil_append, List.cons_append, List.cons.injEq] at e
      exact absurd (by simp [← e.1]) h'
  | cons p pre ih =>
    cases pre' with
    | nil =>
      simp only [List.nil_append, List.cons_append, List.cons.injEq] at e
      exact absurd (by simp [e.1, ha]) h
    | cons p' pre' =>
      simp only [List.cons_append, List.cons.injEq] at e
      simp only [labels_cons, List.mem_cons, not_or] at h h'
      obtain ⟨h1, h2⟩ := ih e.2 h.2 h'.2
      exact ⟨by rw [e.1, h1], h2⟩

theorem reduce_setup (pre post : Dims) (dim : Dim) (n : Int) (x : Operand V)
    (hg : x.view.WF ∧ Dim.invalid ∉ labels x.view.dims) (hd : x.view.dims = pre ++ (dim, n) :: post) (r : Except Err (Dims × MultiIndex 2))
    (h : inPlaceSetup (View.fresh (pre ++ post)) (fun _ : Fin 1 => x) = r) :
    r = (MultiIndex.make x.view.dims (Fin.cons ((labels x.view.dims).map (strideOf (pre ++ post) (rowMajor (shape (pre ++ post)))))
      (fun _ : Fin 1 => (labels x.view.dims).map (strideOf x.view.dims x.view.strides)))).map (fun m => (x.view.dims, m)) := by
  have hsub : (pre ++ post).Sublist x.view.dims := by
    rw [hd]; exact List.Sublist.append (List.Sublist.refl _) (List.sublist_cons_self _ _)
  have hwp : WF (pre ++ post) := ⟨(hsub.map Prod.fst).nodup hg.1.1.1, fun p hp => hg.1.1.2 p (hsub.subset hp)⟩
  rw [← h]
  simp only [inPlaceSetup, bind, Except.bind]
  have h1 : mergeAll (View.fresh (pre ++ post)).dims ((List.finRange 1).map (fun _ => x.view.dims)) = .ok x.view.dims := by
    simp only [mergeAll, View.fresh]
    rw [show (List.finRange 1).map (fun _ => x.view.dims) = [x.view.dims] from rfl]
    simp only [List.foldlM_cons, List.foldlM_nil, bind, Except.bind]
    rw [merge_sub hsub hg.1.1 hg.2]
    rfl
  rw [h1]
  simp only
  rw [asViewStrides_eq (fresh_WF hwp) hg.1.1.1 (fun p hp => hsub.subset hp)]
  simp only
  rw [allStrides_eq hg.1.1.1 (fun _ => hg.1) (fun _ p hp => hp)]
  simp only [View.fresh]
  cases MultiIndex.make x.view.dims (Fin.cons ((labels x.view.dims).map (strideOf (pre ++ post) (rowMajor (shape (pre ++ post)))))
      (fun _ : Fin 1 => (labels x.view.dims).map (strideOf x.view.dims x.view.strides))) <;> rfl

/-- The pattern `flatten_dims` merges wrongly does not occur unless the reduced dim is the
second-innermost and broadcast. -/
theorem reduce_noZeroRun {pre post : Dims} {dim : Dim} {n : Int} {v : View} (hw : v.WF)
    (hd : v.dims = pre ++ (dim, n) :: post)
    (hz : ∀ last, post = [last] → pre ≠ [] → n ≠ 1 → v.strides.getD pre.length 0 ≠ 0) (hpos : ∀ p ∈ v.dims, 0 < p.2) :
    NoZeroRun 1 (readDims v.dims (Fin.cons ((labels v.dims).map (strideOf (pre ++ post) (rowMajor (shape (pre ++ post)))))
      (fun _ : Fin 1 => (labels v.dims).map (strideOf v.dims v.strides)) : Fin 2 → List Int)).reverse := by
  have hsub : (pre ++ post).Sublist v.dims := by
    rw [hd]; exact List.Sublist.append (List.Sublist.refl _) (List.sublist_cons_self _ _)
  have e1 : (Fin.cons ((labels v.dims).map (strideOf (pre ++ post) (rowMajor (shape (pre ++ post)))))
      (fun _ : Fin 1 => (labels v.dims).map (strideOf v.dims v.strides)) : Fin 2 → List Int) =
      fun i => (labels v.dims).map ((Fin.cons (strideOf (pre ++ post) (rowMajor (shape (pre ++ post))))
        (fun _ : Fin 1 => strideOf v.dims v.strides) : Fin 2 → Dim → Int) i) := by
    funext i
    refine Fin.cases ?_ (fun j => ?_) i <;> simp
  rw [e1, readDims_map_labels, ← List.map_reverse]
  have hzero : ∀ p ∈ v.dims, (fun i => (Fin.cons (strideOf (pre ++ post) (rowMajor (shape (pre ++ post))))
        (fun _ : Fin 1 => strideOf v.dims v.strides) : Fin 2 → Dim → Int) i p.1) = (0 : Vec 2) →
      p.1 = dim ∧ strideOf v.dims v.strides p.1 = 0 := by
    intro p hp h0
    refine ⟨?_, by simpa using congrFun h0 1⟩
    by_contra hne
    have h1 : strideOf (pre ++ post) (rowMajor (shape (pre ++ post))) p.1 = 0 := by simpa using congrFun h0 0
    have h2 : p ∈ pre ++ post := by
      rw [hd] at hp
      simp only [List.mem_append, List.mem_cons] at hp ⊢
      rcases hp with h | h | h
      · exact .inl h
      · exact absurd (by rw [h]) hne
      · exact .inr h
    have := strideOf_pos (s := pre ++ post) (st := rowMajor (shape (pre ++ post))) (d := p.1) (by simp [shape])
      (mem_labels (d := p.1) (x := p.2) h2) ((rowMajor_pos _ (by
        intro y hy
        simp only [shape, List.mem_map] at hy
        obtain ⟨q, hq, rfl⟩ := hy
        exact hpos q (hsub.subset hq))).2)
    omega
  have hnd : (labels v.dims).Nodup := hw.1.1
  cases hr : v.dims.reverse with
  | nil => simp [NoZeroRun]
  | cons b D =>
    simp only [List.map_cons, NoZeroRun]
    right
    intro q hq
    cases D with
    | nil => simp at hq
    | cons a D =>
      cases D with
      | nil => simp at hq
      | cons a' D =>
        have hdims : v.dims = (D.reverse ++ [a']) ++ [a, b] := by
          have := congrArg List.reverse hr
          simpa using this
        simp only [List.map_cons, List.length_cons, List.length_map, Nat.add_sub_cancel, List.take_succ_cons] at hq
        rw [List.takeWhile_cons] at hq
        split at hq
        · rename_i h0
          simp only [decide_eq_true_eq] at h0
          have ha := hzero a (by rw [hdims]; simp) h0
          have hda : (labels v.dims).Nodup := hnd
          have hsplit : pre = D.reverse ++ [a'] ∧ (dim, n) = a ∧ post = [b] := by
            have e : pre ++ (dim, n) :: post = (D.reverse ++ [a']) ++ a :: [b] := by rw [← hd, hdims]
            have hdp : dim ∉ labels pre := by
              rw [hd] at hda
              simp only [labels, List.map_append, List.map_cons, List.nodup_append, List.mem_cons, forall_eq_or_imp] at hda
              exact fun h => (hda.2.2 dim h).1 rfl
            have hdp' : dim ∉ labels (D.reverse ++ [a']) := by
              rw [hdims] at hda
              simp only [labels, List.map_append, List.map_cons, List.map_nil, List.nodup_append, List.mem_cons,
                forall_eq_or_imp] at hda
              intro h
              refine (hda.2.2 dim ?_).1 ha.1.symm
              simpa [labels] using h
            exact split_unique e hdp hdp' ha.1
          rcases List.mem_cons.1 hq with rfl | hq
          · by_contra hne
            refine hz b hsplit.2.2 (by rw [hsplit.1]; simp) (by rw [← hsplit.2.1] at hne; exact hne) ?_
            have hdp : dim ∉ labels pre := by
              rw [hd] at hda
              simp only [labels, List.map_append, List.map_cons, List.nodup_append, List.mem_cons, forall_eq_or_imp] at hda
              exact fun h => (hda.2.2 dim h).1 rfl
            have h2 := ha.2
            rw [ha.1, hd, strideOf_split (by rw [← hd]; exact hw.2.1) hdp] at h2
            exact h2
          · exfalso
            have hq' := List.mem_takeWhile_imp hq
            have hq2 := (List.takeWhile_sublist _).subset hq
            have hq3 := List.mem_of_mem_take hq2
            obtain ⟨p, hp, rfl⟩ : ∃ p ∈ a' :: D, (fun p : Dim × Int => (p.2, (fun i => (Fin.cons (strideOf (pre ++ post) (rowMajor (shape (pre ++ post))))
                (fun _ : Fin 1 => strideOf v.dims v.strides) : Fin 2 → Dim → Int) i p.1 : Vec 2))) p = q := by
              rcases List.mem_cons.1 hq3 with rfl | h
              · exact ⟨a', by simp, rfl⟩
              · obtain ⟨p, hp, rfl⟩ := List.mem_map.1 h
                exact ⟨p, List.mem_cons_of_mem _ hp, rfl⟩
            simp only [decide_eq_true_eq] at hq'
            have hpd := hzero p (by
              rw [hdims]
              simp only [List.mem_append, List.mem_reverse, List.mem_cons, List.not_mem_nil, or_false]
              rcases List.mem_cons.1 hp with h | h
              · exact .inl (.inr h)
              · exact .inl (.inl h)) hq'
            rw [hdims] at hda
            simp only [labels, List.map_append, List.map_cons, List.map_nil, List.nodup_append, List.mem_cons,
              forall_eq_or_imp] at hda
            refine (hda.2.2 p.1 ?_).1 (by rw [hpd.1, ha.1])
            rcases List.mem_cons.1 hp with h | h
            · simp [h]
            · simp only [List.map_reverse, List.mem_append, List.mem_reverse]
              exact .inl (List.mem_map_of_mem h)
        · simp at hq

theorem accumulate_exists {op : V → (Fin N → V) → V} {out : View} {ins : Fin N → Operand V} {dims : Dims}
    (hwd : WF dims) {m : MultiIndex (N + 1)} {st : Fin (N + 1) → List Int} (hl : ∀ i, (st i).length = dims.length)
    (h : MultiIndex.make dims st = .ok m)
    (hz : (∀ p ∈ dims, 0 < p.2) → NoZeroRun 1 (readDims dims st).reverse) (mem : Int → V) :
    ∃ mem', transformInPlaceImpl op out ins dims m mem mem' := by
  have hv := volume_nonneg' hwd
  have hb : ∀ b e, 0 ≤ b → b ≤ e → e ≤ Dims.volume dims → m.runBlock (blockFuel b e) b e = some ((intRange b e).map
      (fun k i => addrAux dims (st i) (coordsOf dims k))) := by
    intro b e h0 hbe hev
    rcases eq_or_lt_of_le hbe with rfl | hlt
    · rw [show intRange b b = [] by simp [intRange]]
      exact runBlock_empty m b _
    rw [← wantedCalls_eq]
    exact Props.C11_block_partial dims _ m b e hwd hl h (hz (allPos_of_lt hwd.2 h0 (by omega))) h0 hbe hev _
      (by simp only [blockFuel]; omega)
  simp only [transformInPlaceImpl]
  split
  · have := hb 0 (Dims.volume dims) (le_refl _) hv (le_refl _)
    rw [MultiIndex.runBlock, make_setIndex_zero h] at this
    exact ⟨_, _, this, rfl⟩
  · exact ⟨_, ParallelFor.exists hv (g := fun k => callInPlaceStep op out ins (fun i => addrAux dims (st i) (coordsOf dims k))) mem
      (by intro b e h0 hbe hev; rw [hb b e h0 hbe hev]; simp)⟩

end Scipp
