import Verif.Lemmas.Transform2
import Mathlib.Data.Fin.VecNotation
/-!
Properties C12 (thread schedules) and C14 (overlapping operands).
-/
namespace Scipp.Props
open Scipp Sizes
variable {V : Type} {N : Nat}

/-- Operands as they occur: well-formed view, real dimension labels. -/
def GoodOperand (o : Operand V) : Prop := o.view.WF ∧ Dim.invalid ∉ labels o.view.dims

/-- **C12** (operations creating a new variable): whatever blocks the scheduler makes and
however they are interleaved, the result has exactly the dims of the operands, its element at
any coordinates is the operation applied to the operands' elements at these coordinates,
and nothing outside the output is written. -/
theorem C12_transform (op : (Fin (N + 1) → V) → V) (ins : Fin (N + 1) → Operand V) (dims : Dims) (mem mem' : Int → V)
    (hg : ∀ i, GoodOperand (ins i)) (hb : ∀ i, (ins i).buf ≠ none) (h : Transform op ins dims mem mem') :
    (∀ p, p ∈ dims ↔ ∃ i, p ∈ (ins i).view.dims) ∧
    (∀ c, InDims dims c → mem' (position dims c) = op (fun i => (ins i).read mem ((ins i).view.addr c))) ∧
    ∀ a, a < 0 ∨ Dims.volume dims ≤ a → mem' a = mem a := by
  obtain ⟨hm, strides, m, hst, hmk, hpar⟩ := h
  obtain ⟨hwf, hinv, hcont⟩ := mergeAll_ok (hg 0).1.1 (hg 0).2 (by
    intro b hb
    obtain ⟨i, _, rfl⟩ := List.mem_map.1 hb
    exact ⟨(hg i.succ).1.1, (hg i.succ).2⟩) hm
  have hcont' : ∀ p, p ∈ dims ↔ ∃ i, p ∈ (ins i).view.dims := by
    intro p
    rw [hcont]
    constructor
    · rintro (h | ⟨b, hb, hp⟩)
      · exact ⟨0, h⟩
      · obtain ⟨i, _, rfl⟩ := List.mem_map.1 hb
        exact ⟨i.succ, hp⟩
    · rintro ⟨i, hp⟩
      revert hp
      refine Fin.cases (fun hp => .inl hp) (fun j hp => .inr ⟨_, List.mem_map.2 ⟨j, List.mem_finRange j, rfl⟩, hp⟩) i
  have hin : ∀ i, ∀ p ∈ (ins i).view.dims, p ∈ dims := fun i p hp => (hcont' p).2 ⟨i, hp⟩
  have hst' := allStrides_ok (fun i => (hg i).1) hst
  have hl : ∀ i, (strides i).length = dims.length := by intro i; rw [hst' i]; simp [labels]
  obtain ⟨sched, hperm, rfl⟩ := hpar.perm (g := fun k => callStep op ins (fun i => addrAux dims
      ((Fin.cons (rowMajor (shape dims)) strides : Fin (N + 2) → List Int) i) (coordsOf dims k))) (by
    intro b e h0 hbe hev
    rw [C11_block_new_output dims strides m b e hwf hl hmk h0 hbe hev _ (by simp only [blockFuel]; omega),
      wantedCalls_eq]
    simp)
  have hgk : ∀ k, 0 ≤ k → k < Dims.volume dims → callStep op ins (fun i => addrAux dims
      ((Fin.cons (rowMajor (shape dims)) strides : Fin (N + 2) → List Int) i) (coordsOf dims k)) =
      (⟨k, fun _ => op (fun i => (ins i).read mem ((ins i).view.addr (coordsOf dims k)))⟩ : Step V) := by
    intro k h0 h1
    simp only [callStep, Fin.cons_zero, Fin.cons_succ]
    rw [← position_eq, position_coordsOf hwf h0 h1]
    congr 1
    funext mem1
    congr 1
    funext i
    rw [hst' i, addrAux_broadcast _ (hg i).1.2.1 (hg i).1.1.1 hwf.1 (labels_subset (hin i))]
    cases hbi : (ins i).buf with
    | none => exact absurd hbi (hb i)
    | some f => simp [Operand.read, hbi, View.addr]
  have hmap : (intRange 0 (Dims.volume dims)).map (fun k => callStep op ins (fun i => addrAux dims
      ((Fin.cons (rowMajor (shape dims)) strides : Fin (N + 2) → List Int) i) (coordsOf dims k))) =
      (intRange 0 (Dims.volume dims)).map (fun k =>
      (⟨k, fun _ => op (fun i => (ins i).read mem ((ins i).view.addr (coordsOf dims k)))⟩ : Step V)) := by
    apply List.map_congr_left
    intro k hk
    rw [mem_intRange] at hk
    exact hgk k hk.1 hk.2
  rw [hmap] at hperm
  refine ⟨hcont', ?_, ?_⟩
  · intro c hc
    have hpb := position_bounds hc
    have hco := coordsOf_position hwf.1 hc
    have hmem : (⟨position dims c, fun _ => op (fun i => (ins i).read mem ((ins i).view.addr c))⟩ : Step V) ∈ sched := by
      rw [hperm.mem_iff]
      refine List.mem_map.2 ⟨position dims c, mem_intRange.2 hpb, ?_⟩
      congr 1
      funext _
      congr 1
      funext i
      simp only [View.addr]
      rw [addrAux_congr (fun d hd => hco d (labels_subset (hin i) d hd))]
    refine runSteps_cell (T := sched.map Step.cell) (l := sched) (mem := mem) ?_
      (fun s hs => List.mem_map_of_mem hs) ?_ _ hmem
    · rw [(hperm.map Step.cell).nodup_iff, List.map_map]
      exact (nodup_intRange _ _).map_on (fun x _ y _ h => h)
    · intro s hs m m' _ _
      have := hperm.mem_iff.1 hs
      obtain ⟨k, _, rfl⟩ := List.mem_map.1 this
      rfl
  · intro a ha
    apply runSteps_other
    rw [(hperm.map Step.cell).mem_iff, List.map_map]
    intro hmem
    obtain ⟨k, hk, rfl⟩ := List.mem_map.1 hmem
    rw [mem_intRange] at hk
    simp only [Function.comp] at ha
    omega

/-- **C12** (the statement as such): two runs of the same operation, with different blocks
and interleavings and different initial content of the output buffer, give the same
values everywhere in the output. -/
theorem C12_transform_deterministic (op : (Fin (N + 1) → V) → V) (ins : Fin (N + 1) → Operand V) (dims dims' : Dims)
    (mem₁ mem₂ mem₁' mem₂' : Int → V)
    (hg : ∀ i, GoodOperand (ins i)) (hb : ∀ i, (ins i).buf ≠ none)
    (h₁ : Transform op ins dims mem₁ mem₁') (h₂ : Transform op ins dims' mem₂ mem₂') :
    dims = dims' ∧ ∀ a, 0 ≤ a → a < Dims.volume dims → mem₁' a = mem₂' a := by
  have hd : dims = dims' := by
    have := h₁.1.symm.trans h₂.1
    injection this
  subst hd
  refine ⟨rfl, fun a h0 h1 => ?_⟩
  obtain ⟨hwf, _, _⟩ := mergeAll_ok (hg 0).1.1 (hg 0).2 (by
    intro b hb
    obtain ⟨i, _, rfl⟩ := List.mem_map.1 hb
    exact ⟨(hg i.succ).1.1, (hg i.succ).2⟩) h₁.1
  have e1 := (C12_transform op ins dims _ _ hg hb h₁).2.1 _ (coordsOf_inDims hwf h0 h1)
  have e2 := (C12_transform op ins dims _ _ hg hb h₂).2.1 _ (coordsOf_inDims hwf h0 h1)
  rw [position_coordsOf hwf h0 h1] at e1 e2
  rw [e1, e2]
  congr 1
  funext i
  cases hbi : (ins i).buf with
  | none => exact absurd hbi (hb i)
  | some f => simp [Operand.read, hbi]

/-- **C12** (the loops end): if the dims of the operands can be merged and at most six dims are left after
flattening (otherwise the constructor of the index throws), there is a run. -/
theorem C12_transform_terminates (op : (Fin (N + 1) → V) → V) (ins : Fin (N + 1) → Operand V) (dims : Dims)
    (mem : Int → V) (hg : ∀ i, GoodOperand (ins i))
    (hm : mergeAll (ins 0).view.dims ((List.finRange N).map (fun i => (ins i.succ).view.dims)) = .ok dims)
    (hc : dims.length ≤ 6) : ∃ mem', Transform op ins dims mem mem' := by
  obtain ⟨hwf, hinv, hcont⟩ := mergeAll_ok (hg 0).1.1 (hg 0).2 (by
    intro b hb
    obtain ⟨i, _, rfl⟩ := List.mem_map.1 hb
    exact ⟨(hg i.succ).1.1, (hg i.succ).2⟩) hm
  have hin : ∀ i, ∀ p ∈ (ins i).view.dims, p ∈ dims := by
    intro i p
    refine Fin.cases (fun hp => (hcont p).2 (.inl hp))
      (fun j hp => (hcont p).2 (.inr ⟨_, List.mem_map.2 ⟨j, List.mem_finRange j, rfl⟩, hp⟩)) i
  have hst := allStrides_eq hwf.1 (fun i => (hg i).1) hin
  obtain ⟨m, hmk⟩ := MultiIndex.make_ok (strides := (Fin.cons (rowMajor (shape dims)) (fun i => (labels dims).map
    (strideOf (ins i).view.dims (ins i).view.strides)) : Fin (N + 2) → List Int)) hc
  refine ⟨_, hm, _, m, hst, hmk, ParallelFor.exists (volume_nonneg' hwf) (g := fun k => callStep op ins (fun i => addrAux dims
      ((Fin.cons (rowMajor (shape dims)) (fun i => (labels dims).map
    (strideOf (ins i).view.dims (ins i).view.strides)) : Fin (N + 2) → List Int) i) (coordsOf dims k))) mem ?_⟩
  intro b e h0 hbe hev
  rw [C11_block_new_output dims _ m b e hwf (by intro i; simp [labels]) hmk h0 hbe hev _
    (by simp only [blockFuel]; omega), wantedCalls_eq]
  simp

/-! ### in place -/

/-- All elements of the view coincide in memory although it has dims: `memory_bounds` gives
an empty range. -/
def AllStridesZero (v : View) : Prop := v.dims ≠ [] ∧ ∀ s ∈ v.strides, s = 0

/-- **C14** (claim in full is false): an in-place operation with an operand that is a broadcast of
a single element of the output. `x += x['x', 0]` broadcast to the dims of `x`, for
`x = [1, 2, 3]`, gives `[2, 4, 5]` instead of `[2, 3, 4]` when run serially: no overlap is
reported. -/
theorem C14_wrong_for_broadcast_element :
    let out : View := View.fresh [(2, 3)]
    let rhs : Operand Int := ⟨⟨[(2, 3)], [0], 0, true⟩, none⟩
    let mem : Int → Int := fun a => a + 1
    (∃ s, out.slice ⟨2, 0, -1, 1⟩ = .ok s ∧ s.broadcast [(2, 3)] = .ok rhs.view) ∧
    ∃ mem', transformInPlace (fun a b => a + b (0 : Fin 1)) out (fun _ => rhs) mem (.ok mem') ∧
      mem' 0 = 2 ∧ mem' 1 = 4 ∧ mem' 2 = 5 ∧
      mem' 1 ≠ mem 1 + mem (rhs.view.addr (fun _ => 1)) := by
  refine ⟨⟨⟨[], [], 0, false⟩, by decide, by decide⟩, ?_⟩
  let rhs : Operand Int := ⟨⟨[(2, 3)], [0], 0, true⟩, none⟩
  refine ⟨runSteps (fun a => a + 1) (serialSteps (fun a b => a + b (0 : Fin 1)) (View.fresh [(2, 3)]) (fun _ => rhs)),
    ?_, by decide, by decide, by decide, by decide⟩
  simp only [transformInPlace]
  rw [if_neg (by decide), if_neg (by decide)]
  have hwf : Sizes.WF [(2, 3)] := by simp [Sizes.WF]
  exact TransformInPlace_serial (fresh_WF hwf) (fresh_distinct hwf.1) (by decide) (fun _ => by simp [View.WF, Sizes.WF])
    (by decide) (by decide) (by decide) _

/-- What an in-place operation has to do: the element at `c` becomes the operation applied to
the elements at `c` *before the operation* of the output and of all operands; the rest of
the buffer is not changed. -/
def InPlaceResult (op : V → (Fin N → V) → V) (out : View) (ins : Fin N → Operand V) (mem mem' : Int → V) : Prop :=
  (∀ c, InDims out.dims c → mem' (out.addr c) =
    op (mem (out.addr c)) (fun i => (ins i).read mem ((ins i).view.addr c))) ∧
  ∀ a, (∀ c, InDims out.dims c → out.addr c ≠ a) → mem' a = mem a

/-- The copy made of an overlapping operand has the same elements. -/
theorem clone_read (o : Operand V) (mem mem1 : Int → V) (c : Dim → Int) (hw : Sizes.WF o.view.dims)
    (hc : InDims o.view.dims c) :
    (o.clone mem).read mem1 ((o.clone mem).view.addr c) = o.read mem (o.view.addr c) := by
  simp only [Operand.clone, Operand.read, Option.getD_some, View.addr, View.fresh]
  rw [← position_eq]
  have hco := coordsOf_position hw.1 hc
  rw [zero_add, addrAux_congr hco]

/-- **C14** with **C12** (in-place operations, any schedule): every run ends with the
result computed from the values before the operation, also if operands share memory with the
output. Missing from the full claim: operands in the same buffer all of whose strides are zero
(`C14_wrong_for_broadcast_element`), unless the output has at most one element. -/
theorem C14_in_place_partial (op : V → (Fin N → V) → V) (out : View) (ins : Fin N → Operand V) (mem mem' : Int → V)
    (hw : out.WF) (hi : Dim.invalid ∉ labels out.dims) (hd : out.readonly = false → out.Distinct)
    (hwi : ∀ i, (ins i).view.WF)
    (hz : ∀ i, (ins i).buf = none → ¬ AllStridesZero (ins i).view ∨ Dims.volume out.dims ≤ 1)
    (h : transformInPlace op out ins mem (.ok mem')) : InPlaceResult op out ins mem mem' := by
  simp only [transformInPlace] at h
  split at h
  · simp at h
  rename_i hinc
  split at h
  · simp at h
  rename_i hro
  have hd := hd (by simpa using hro)
  have hin : ∀ i, ∀ p ∈ (ins i).view.dims, p ∈ out.dims := by
    intro i
    rw [← includes_iff hw.1.1 (hwi i).1.1]
    by_contra hc
    apply hinc
    rw [List.any_eq_true]
    exact ⟨i, List.mem_finRange i, by simpa using hc⟩
  simp only [TransformInPlace] at h
  split at h
  · simp at h
  rename_i hov
  -- the operands after a possible copy
  generalize hins : (if ((List.finRange N).any fun i => Operand.overlaps out (ins i)) = true
    then fun i => (ins i).clone mem else ins) = ins' at h
  have hdims : ∀ i, (ins' i).view.dims = (ins i).view.dims := by
    intro i; rw [← hins]; split <;> rfl
  have hwi' : ∀ i, (ins' i).view.WF := by
    intro i; rw [← hins]; split
    · exact fresh_WF (hwi i).1
    · exact hwi i
  have hin' : ∀ i, ∀ p ∈ (ins' i).view.dims, p ∈ out.dims := by
    intro i; rw [hdims i]; exact hin i
  have hread : ∀ i c, InDims out.dims c →
      (ins' i).read mem ((ins' i).view.addr c) = (ins i).read mem ((ins i).view.addr c) := by
    intro i c hc
    rw [← hins]
    split
    · exact clone_read _ _ _ _ (hwi i).1 (fun d n hm => hc d n (hin i _ hm))
    · rfl
  have hloc : Dims.volume out.dims ≤ 1 ∨ ∀ i, (ins' i).buf.isSome ∨ ∀ c, (ins' i).view.addr c = out.addr c := by
    by_cases hv : Dims.volume out.dims ≤ 1
    · exact .inl hv
    right
    intro i
    by_cases hany : ((List.finRange N).any fun i => Operand.overlaps out (ins i)) = true
    · left; rw [← hins, if_pos hany]; rfl
    rw [if_neg hany] at hins
    subst hins
    cases hb : (ins i).buf with
    | some f => left; rfl
    | none =>
      right
      have hno : View.overlaps out (ins i).view = false := by
        by_contra hc
        apply hany
        rw [List.any_eq_true]
        exact ⟨i, List.mem_finRange i, by simp [Operand.overlaps, hb]; simpa using hc⟩
      simp only [View.overlaps] at hno
      split at hno
      · rename_i he
        obtain ⟨h1, h2, h3⟩ := he
        simp only [Dims.eqDims, decide_eq_true_eq] at h2
        intro c
        simp only [View.addr]
        rw [h1, h2, h3]
      · exfalso
        have hpos := allPos_of_lt hw.1.2 (Int.le_refl 0) (by omega : (0 : Int) < Dims.volume out.dims)
        obtain ⟨a1, a2⟩ := memoryBounds_eq hw
        obtain ⟨b1, b2⟩ := memoryBounds_eq (hwi i)
        have hnz : out.dims = [] ∨ ∃ s ∈ out.strides, s ≠ 0 := by
          by_contra hc
          push Not at hc
          have := volume_of_zero_strides hw hd hpos hc.2
          omega
        have hnzi : (ins i).view.dims = [] ∨ ∃ s ∈ (ins i).view.strides, s ≠ 0 := by
          have := (hz i hb).resolve_right hv
          by_contra hc
          push Not at hc
          exact this hc
        have a2 := a2 hpos hnz
        have b2 := b2 (fun p hp => hpos p (hin i p hp)) hnzi
        simp only [a1, b1, Bool.and_eq_false_iff, decide_eq_false_iff_not] at hno
        omega
  rw [inPlaceSetup_eq hw hi hwi' hin'] at h
  cases hm : MultiIndex.make out.dims (Fin.cons out.strides (fun i => (labels out.dims).map
        (strideOf (ins' i).view.dims (ins' i).view.strides)) : Fin (N + 1) → List Int) with
  | error e => rw [hm] at h; simp [Except.map] at h
  | ok m =>
    rw [hm] at h
    obtain ⟨mem1, hr, he⟩ := h
    injection he with he
    subst he
    obtain ⟨r1, r2⟩ := inPlace_effect hw hd hwi' hin' hloc hm hr
    refine ⟨fun c hc => ?_, r2⟩
    rw [r1 c hc]
    congr 1
    funext i
    exact hread i c hc

/-- **C12** (in-place operations): if the operands are in other buffers, the result does not depend on the
schedule, without exception. -/
theorem C12_in_place (op : V → (Fin N → V) → V) (out : View) (ins : Fin N → Operand V) (mem mem₁ mem₂ : Int → V)
    (hw : out.WF) (hi : Dim.invalid ∉ labels out.dims) (hd : out.readonly = false → out.Distinct)
    (hwi : ∀ i, (ins i).view.WF) (hb : ∀ i, (ins i).buf ≠ none)
    (h₁ : transformInPlace op out ins mem (.ok mem₁)) (h₂ : transformInPlace op out ins mem (.ok mem₂)) :
    InPlaceResult op out ins mem mem₁ ∧ mem₁ = mem₂ := by
  have r1 := C14_in_place_partial op out ins mem mem₁ hw hi hd hwi (fun i h => absurd h (hb i)) h₁
  have r2 := C14_in_place_partial op out ins mem mem₂ hw hi hd hwi (fun i h => absurd h (hb i)) h₂
  refine ⟨r1, funext fun a => ?_⟩
  by_cases ha : ∃ c, InDims out.dims c ∧ out.addr c = a
  · obtain ⟨c, hc, rfl⟩ := ha
    rw [r1.1 c hc, r2.1 c hc]
  · push Not at ha
    rw [r1.2 a ha, r2.2 a ha]

/-- **C12**, **C14** (the loops end): an in-place operation on a writable output with up to
six dims, operands with fitting dims and at most one of them if there is overlap, has a run. -/
theorem C14_in_place_terminates (op : V → (Fin N → V) → V) (out : View) (ins : Fin N → Operand V) (mem : Int → V)
    (hw : out.WF) (hi : Dim.invalid ∉ labels out.dims) (hr : out.readonly = false) (hd : out.Distinct)
    (hwi : ∀ i, (ins i).view.WF) (hin : ∀ i, ∀ p ∈ (ins i).view.dims, p ∈ out.dims) (hc : out.dims.length ≤ 6)
    (hN : N = 1 ∨ ∀ i, (ins i).buf ≠ none) :
    ∃ mem', transformInPlace op out ins mem (.ok mem') := by
  have hinc : ¬ ((List.finRange N).any fun i => !includes out.dims (ins i).view.dims) = true := by
    rw [List.any_eq_true]
    rintro ⟨i, _, h⟩
    rw [(includes_iff hw.1.1 (hwi i).1.1).2 (hin i)] at h
    simp at h
  simp only [transformInPlace, if_neg hinc, hr, Bool.false_eq_true, if_false]
  · by_cases hany : ((List.finRange N).any fun i => Operand.overlaps out (ins i)) = true
    · have h1 : N = 1 := by
        rcases hN with h | h
        · exact h
        · exfalso
          rw [List.any_eq_true] at hany
          obtain ⟨i, _, hi⟩ := hany
          cases hb : (ins i).buf with
          | none => exact h i hb
          | some f => simp [Operand.overlaps, hb] at hi
      have hno : ((List.finRange N).any fun i => Operand.overlaps out ((fun i => (ins i).clone mem) i)) = false := by
        rw [List.any_eq_false]
        intro i _
        simp [Operand.overlaps, Operand.clone]
      have := TransformInPlace_serial (op := op) (out := out) (ins := fun i => (ins i).clone mem) hw hd hi
        (fun i => fresh_WF (hwi i).1) hin hc hno mem
      refine ⟨runSteps mem (serialSteps op out fun i => (ins i).clone mem), ?_⟩
      · simp only [TransformInPlace] at this ⊢
        rw [if_neg (by simp [h1]), if_neg (by rw [hno]; simp)] at this
        rw [if_neg (by simp [h1]), if_pos hany]
        exact this
    · exact ⟨_, TransformInPlace_serial hw hd hi hwi hin hc (by simpa using hany) mem⟩

/-- The hypotheses of `C14_in_place_partial`: `x['x', 1:4] += x['x', 0:3]`; the output is
a writable slice, the operand an overlapping shifted one (the library copies it). -/
example : ∃ mem' : Int → Int, transformInPlace (fun a b => a + b (0 : Fin 1)) ⟨[(2, 3)], [1], 1, false⟩
      (fun _ => ⟨⟨[(2, 3)], [1], 0, false⟩, none⟩) (fun a => a) (.ok mem') ∧
    mem' 1 = 1 ∧ mem' 2 = 3 ∧ mem' 3 = 5 := by
  have hw : (⟨[(2, 3)], [1], 1, false⟩ : View).WF := by simp [View.WF, Sizes.WF]
  have hd : (⟨[(2, 3)], [1], 1, false⟩ : View).Distinct := by
    intro c c' _ _ h d hd
    simp [View.addr, addrAux] at h
    simp [labels] at hd
    subst hd; exact h
  obtain ⟨mem', h⟩ := C14_in_place_terminates (fun a b => a + b (0 : Fin 1)) ⟨[(2, 3)], [1], 1, false⟩
    (fun _ => ⟨⟨[(2, 3)], [1], 0, false⟩, none⟩) (fun a => a) hw (by decide) rfl hd
    (fun _ => by simp [View.WF, Sizes.WF]) (by simp) (by decide) (.inl rfl)
  have hr := C14_in_place_partial _ _ _ _ _ hw (by decide) (fun _ => hd) (fun _ => by simp [View.WF, Sizes.WF])
    (fun _ _ => .inl (by simp [AllStridesZero])) h
  refine ⟨mem', h, ?_, ?_, ?_⟩
  · exact hr.1 (fun _ => 0) (by intro d n h; simp at h ⊢; omega)
  · exact hr.1 (fun _ => 1) (by intro d n h; simp at h ⊢; omega)
  · exact hr.1 (fun _ => 2) (by intro d n h; simp at h ⊢; omega)

/-- `C12_transform`: the sum of a column and a row, with the result created by the
operation. -/
example : ∃ mem' : Int → Int, Transform (fun v => v (0 : Fin 2) + v 1)
      (fun i => if i = 0 then ⟨View.fresh [(2, 2)], some (fun a => 10 * a)⟩ else ⟨View.fresh [(3, 3)], some (fun a => a)⟩)
      [(2, 2), (3, 3)] (fun _ => 0) mem' ∧ mem' 5 = 12 := by
  have hg : ∀ i : Fin 2, GoodOperand (if i = 0 then (⟨View.fresh [(2, 2)], some (fun a => 10 * a)⟩ : Operand Int)
      else ⟨View.fresh [(3, 3)], some (fun a => a)⟩) := by
    intro i
    split
    · exact ⟨fresh_WF (by simp [Sizes.WF]), by decide⟩
    · exact ⟨fresh_WF (by simp [Sizes.WF]), by decide⟩
  obtain ⟨mem', h⟩ := C12_transform_terminates (fun v => v (0 : Fin 2) + v 1) _ [(2, 2), (3, 3)] (fun _ => 0) hg
    (by decide) (by decide)
  refine ⟨mem', h, ?_⟩
  have := (C12_transform _ _ _ _ _ hg (by intro i; split <;> simp) h).2.1 (fun d => if d = 2 then 1 else 2)
    (by intro d n hm; simp at hm; rcases hm with ⟨rfl, rfl⟩ | ⟨rfl, rfl⟩ <;> decide)
  exact this

/-- Two blocks, executed by interleaving threads. -/
example : IsSplit 3 [(1, 3), (0, 1)] ∧ Interleaving [[1, 2], [0]] [1, 0, 2] := by
  refine ⟨⟨by decide, by decide⟩, ?_⟩
  exact .step (pre := []) (.step (pre := [[2]]) (.step (pre := []) (.done (by simp))))

end Scipp.Props
