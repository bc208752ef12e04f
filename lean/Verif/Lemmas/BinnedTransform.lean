import Verif.Spec.BinnedTransform
import Verif.Lemmas.Bins
import Verif.Lemmas.Transform2
import Verif.Props.BinnedIndex
import Verif.Props.Transform
/-!
Lemmas for elementwise operations with binned operands.
-/
namespace Scipp.BinnedOps
open Sizes Props
variable {V M : Type} {N : Nat}

/-! ### schedules -/

/-- If every block makes the calls of its bins, any run executes the calls of all bins in some order. -/
theorem parallel_perm {n : Int} {body : Int → Int → Option (List (Step V))} {g : Int → List (Step V)}
    {mem mem' : Int → V} (h : ParallelFor n body mem mem')
    (hb : ∀ b e, 0 ≤ b → b ≤ e → e ≤ n → body b e = some ((intRange b e).flatMap g)) :
    ∃ sched : List (Step V), sched.Perm ((intRange 0 n).flatMap g) ∧ mem' = runSteps mem sched := by
  obtain ⟨blocks, threads, sched, hs, ht, hi, rfl⟩ := h
  refine ⟨sched, ?_, rfl⟩
  have hth : threads = blocks.map (fun b => (intRange b.1 b.2).flatMap g) :=
    mapM_some (fun b hm => hb _ _ (hs.1 b hm).1 (hs.1 b hm).2.1 (hs.1 b hm).2.2) ht
  have h1 := hi.perm
  have h2 : threads.flatten = (blocks.flatMap (fun b => intRange b.1 b.2)).flatMap g := by
    rw [hth, List.flatMap_assoc, ← List.flatMap_def]
  rw [h2] at h1
  exact h1.trans (hs.2.flatMap_right g)

/-- There is a run. -/
theorem parallel_exists {n : Int} (hn : 0 ≤ n) {body : Int → Int → Option (List (Step V))} {g : Int → List (Step V)}
    (mem : Int → V)
    (hb : ∀ b e, 0 ≤ b → b ≤ e → e ≤ n → body b e = some ((intRange b e).flatMap g)) :
    ParallelFor n body mem (runSteps mem ((intRange 0 n).flatMap g)) :=
  ⟨[(0, n)], [(intRange 0 n).flatMap g], _, .whole hn, by simp [hb 0 n (by omega) hn (by omega)], .single _, rfl⟩

/-! ### the calls made for the events of a block of bins -/

/-- Indices of all operands for the `k`-th event of the bin at position `x`. -/
def eventIdx (dims : Dims) (ps : Fin N → BinnedIndex.Operand) (x : Int) (k : Nat) : Vec N := fun i =>
  match (ps i).bins with
  | some (st, f) => ((f (addrAux dims (ps i).strides (coordsOf dims x))).1 + k) * st.headD 0
  | none => addrAux dims (ps i).strides (coordsOf dims x)

theorem coordsOf_single (d : Dim) (s : Int) (k : Int) : coordsOf [(d, s)] k d = k := by
  simp [coordsOf, Dims.volume]

theorem wanted_single (sd : Dim) (n : Int) (dims : Dims) (ps : Fin N → BinnedIndex.Operand) (size : (Dim → Int) → Int) (b e : Int)
    (hst : ∀ i st f, (ps i).bins = some (st, f) → st.length = 1) :
    wantedEvents [] sd n [] dims ps size b e =
      (intRange b e).flatMap (fun x => (List.range (size (coordsOf dims x)).toNat).map (eventIdx dims ps x)) := by
  unfold wantedEvents intRange
  rw [List.flatMap_map]
  congr 1
  funext j
  simp only [List.nil_append]
  have hv : Dims.volume [(sd, size (coordsOf dims (b + j)))] = size (coordsOf dims (b + j)) := by simp [Dims.volume]
  rw [hv]
  congr 1
  funext k i
  unfold eventIdx
  cases h : (ps i).bins with
  | none => rfl
  | some q =>
    obtain ⟨st, f⟩ := q
    have := hst i st f h
    match st, this with
    | [s], _ => simp [addrAux, upd, coordsOf_single]; left; ring

/-- The number of events of a block is at most the number of all. -/
theorem block_length {g : Int → Nat} {b e n : Int} (h0 : 0 ≤ b) (hbe : b ≤ e) (hen : e ≤ n) :
    ((intRange b e).map g).sum ≤ ((List.range n.toNat).map (fun k : Nat => g k)).sum := by
  have h1 : ((List.range n.toNat).map (fun k : Nat => g k)) = (intRange 0 n).map g := by
    simp [intRange, Function.comp_def]
  have h2 : ∀ x y z : Int, x ≤ y → y ≤ z → intRange x z = intRange x y ++ intRange y z := by
    intro x y z hxy hyz
    simp only [intRange]
    rw [show (z - x).toNat = (y - x).toNat + (z - y).toNat by omega, List.range_add, List.map_append, List.map_map]
    congr 1
    apply List.map_congr_left
    intro j _
    simp only [Function.comp]; push_cast; omega
  rw [h1, h2 0 b n h0 (by omega), h2 b e n hbe hen]
  simp only [List.map_append, List.sum_append]
  omega

/-- Validation against a binned output checks every other binned operand. -/
theorem validate_all {dims : Dims} {p0 : BinnedIndex.Operand} {b0} (h0 : p0.bins = some b0) :
    ∀ {l : List BinnedIndex.Operand}, BinnedIndex.validateAll dims p0 l = .ok () → ∀ q ∈ l, ∀ b, q.bins = some b →
      BinnedIndex.validatePair dims (p0.strides, b0.2) (q.strides, b.2) = .ok ()
  | [], _, q, hq, _, _ => by simp at hq
  | p1 :: l, h, q, hq, b, hb => by
    simp only [BinnedIndex.validateAll, h0] at h
    cases h1 : p1.bins with
    | none =>
      simp only [h1, bind, Except.bind, Option.isSome_some, if_true] at h
      rcases List.mem_cons.1 hq with rfl | hq
      · rw [h1] at hb; cases hb
      · exact validate_all h0 h q hq b hb
    | some b1 =>
      simp only [h1] at h
      cases hp : BinnedIndex.validatePair dims (p0.strides, b0.2) (p1.strides, b1.2) with
      | error e => rw [hp] at h; simp [bind, Except.bind] at h
      | ok u =>
        simp only [hp, bind, Except.bind, Option.isSome_some, if_true] at h
        rcases List.mem_cons.1 hq with rfl | hq
        · rw [h1] at hb; cases hb; exact hp
        · exact validate_all h0 h q hq b hb

theorem pos_of_inDims {dims : Dims} {c : Dim → Int} (h : InDims dims c) : ∀ p ∈ dims, 0 < p.2 := by
  intro p hp
  have := h p.1 p.2 hp
  omega

/-- Bins of all binned operands have the size of those of the first. -/
theorem common_sizes {v : View} (hw : v.WF) (hd : v.Distinct) {ps : Fin (N + 1) → BinnedIndex.Operand} {b0}
    (h0 : (ps 0).bins = some b0) (hs : (ps 0).strides = v.strides)
    (hl : ∀ i, (ps i).strides.length = v.dims.length)
    (hv : BinnedIndex.validateAll v.dims (ps 0) ((List.finRange N).map (fun i => ps i.succ)) = .ok ()) :
    CommonSizes v.dims ps (fun c => (b0.2 (addrAux v.dims v.strides c)).2 - (b0.2 (addrAux v.dims v.strides c)).1) := by
  intro c hc i st f hi
  revert hi
  refine Fin.cases ?_ (fun j => ?_) i
  · intro hi
    rw [h0] at hi
    cases hi
    rw [hs]
  · intro hi
    have hp := validate_all h0 hv (ps j.succ) (List.mem_map.2 ⟨j, List.mem_finRange j, rfl⟩) _ hi
    rw [hs] at hp
    have := validatePair_sound v.dims _ _ hw.1 hw.2.1 (hl j.succ) (by
      have := noZeroRun_of_distinct hw hd (pos_of_inDims hc) (Fin.cons (ps j.succ).strides Fin.elim0 : Fin 1 → List Int)
      exact this) hp c hc
    exact this.symm

theorem sizes_index_single (d : Dim) (n : Int) : Sizes.index [(d, n)] d = .ok 0 := by simp [Sizes.index]

/-- Number of events of the bins of the first operand. -/
def firstSize (dims : Dims) (p : BinnedIndex.Operand) (c : Dim → Int) : Int :=
  match p.bins with
  | some (_, f) => (f (addrAux dims p.strides c)).2 - (f (addrAux dims p.strides c)).1
  | none => 0

/-- What is known when the index has been constructed: the sizes of the bins agree, and every block visits its events. -/
theorem block {v : View} (hw : v.WF) (hd : v.Distinct) {ps : Fin (N + 1) → BinnedIndex.Operand} {b0}
    (h0 : (ps 0).bins = some b0) (hs : (ps 0).strides = v.strides)
    (hl : ∀ i, (ps i).strides.length = v.dims.length)
    (h1 : ∀ i st f, (ps i).bins = some (st, f) → st.length = 1)
    (hpos : ∀ c, InDims v.dims c → 0 ≤ firstSize v.dims (ps 0) c)
    {sd : Dim} {n : Int} (hn : 0 ≤ n) {m : BinnedIndex (N + 1)} (h : index v.dims [(sd, n)] sd ps = .ok (some m)) :
    CommonSizes v.dims ps (firstSize v.dims (ps 0)) ∧
    (0 < Dims.volume v.dims → ∀ b e, 0 ≤ b → b ≤ e → e ≤ Dims.volume v.dims →
      m.runBlock (seekFuel v.dims) (runFuel v.dims (ps 0)) b e =
        some ((intRange b e).flatMap (fun x =>
          (List.range (firstSize v.dims (ps 0) (coordsOf v.dims x)).toNat).map (eventIdx v.dims ps x)))) := by
  simp only [index, bind, Except.bind] at h
  cases hv : BinnedIndex.validateAll v.dims (ps 0) ((List.finRange N).map (fun i => ps i.succ)) with
  | error e => rw [hv] at h; cases h
  | ok u =>
    rw [hv, sizes_index_single] at h
    simp only at h
    have hcs := common_sizes hw hd h0 hs hl hv
    have hfs : (fun c => (b0.2 (addrAux v.dims v.strides c)).2 - (b0.2 (addrAux v.dims v.strides c)).1) =
        firstSize v.dims (ps 0) := by
      funext c; simp [firstSize, h0, hs]
    rw [hfs] at hcs
    refine ⟨hcs, ?_⟩
    intro hne b e hb hbe hev
    have hz := noZeroRun_of_distinct hw hd (allPos_of_lt hw.1.2 (le_refl 0) hne) (fun i => (ps i.succ).strides)
    have hps : (Fin.cons v.strides (fun i => (ps i.succ).strides) : Fin (N + 1) → List Int) = fun i => (ps i).strides := by
      funext i
      refine Fin.cases ?_ (fun j => ?_) i
      · simp [hs]
      · simp
    rw [hps] at hz
    have hzi : NoZeroRun (([] : Dims).length + 1) (readDims ([] ++ (sd, n) :: []) (bufStrides ps)).reverse := by
      refine .inr ?_
      simp [readDims]
    rw [← wanted_single sd n v.dims ps _ b e h1]
    refine C13_block_partial [] sd n [] v.dims ps (firstSize v.dims (ps 0)) _ _ m b e ?_ hw.1 hne (by simp) (by simp) hl
      (by intro i st f hi; simpa using h1 i st f hi) ⟨0, by rw [h0]; rfl⟩ hcs hpos hz hzi h hb hbe hev
      (by unfold seekFuel; have := volume_nonneg' hw.1; omega) ?_
    · exact ⟨by simp [labels], by simpa using hn⟩
    · rw [wanted_single sd n v.dims ps _ b e h1, List.length_flatMap]
      have := block_length (g := fun x => (firstSize v.dims (ps 0) (coordsOf v.dims x)).toNat) hb hbe hev
      simp only [List.length_map, List.length_range]
      unfold runFuel
      refine Nat.lt_succ_of_le (this.trans (le_of_eq ?_))
      congr 1
      apply List.map_congr_left
      intro k _
      simp only [firstSize]
      cases (ps 0).bins with
      | none => rfl
      | some q => rfl

/-! ### effect of the calls of all bins -/

/-- The iteration over all bins when there is a stride 0. -/
theorem serial {v : View} (hw : v.WF) (hd : v.Distinct) {ps : Fin (N + 1) → BinnedIndex.Operand} {b0}
    (h0 : (ps 0).bins = some b0) (hs : (ps 0).strides = v.strides)
    (hl : ∀ i, (ps i).strides.length = v.dims.length)
    (h1 : ∀ i st f, (ps i).bins = some (st, f) → st.length = 1)
    (hpos : ∀ c, InDims v.dims c → 0 ≤ firstSize v.dims (ps 0) c)
    {sd : Dim} {n : Int} (hn : 0 ≤ n) {m : BinnedIndex (N + 1)} (h : index v.dims [(sd, n)] sd ps = .ok (some m)) :
    0 < Dims.volume v.dims → ∃ e, m.setIndex (seekFuel v.dims) (Dims.volume v.dims) = some e ∧
      BinnedIndex.run (seekFuel v.dims) (runFuel v.dims (ps 0)) m e =
        some ((intRange 0 (Dims.volume v.dims)).flatMap (fun x =>
          (List.range (firstSize v.dims (ps 0) (coordsOf v.dims x)).toNat).map (eventIdx v.dims ps x))) := by
  simp only [index, bind, Except.bind] at h
  cases hv : BinnedIndex.validateAll v.dims (ps 0) ((List.finRange N).map (fun i => ps i.succ)) with
  | error e => rw [hv] at h; cases h
  | ok u =>
    rw [hv, sizes_index_single] at h
    simp only at h
    have hcs := common_sizes hw hd h0 hs hl hv
    have hfs : (fun c => (b0.2 (addrAux v.dims v.strides c)).2 - (b0.2 (addrAux v.dims v.strides c)).1) =
        firstSize v.dims (ps 0) := by
      funext c; simp [firstSize, h0, hs]
    rw [hfs] at hcs
    intro hne
    have hz := noZeroRun_of_distinct hw hd (allPos_of_lt hw.1.2 (le_refl 0) hne) (fun i => (ps i.succ).strides)
    have hps : (Fin.cons v.strides (fun i => (ps i.succ).strides) : Fin (N + 1) → List Int) = fun i => (ps i).strides := by
      funext i
      refine Fin.cases ?_ (fun j => ?_) i
      · simp [hs]
      · simp
    rw [hps] at hz
    have hzi : NoZeroRun (([] : Dims).length + 1) (readDims ([] ++ (sd, n) :: []) (bufStrides ps)).reverse := by
      refine .inr ?_
      simp [readDims]
    rw [← wanted_single sd n v.dims ps _ 0 (Dims.volume v.dims) h1]
    refine C13_serial_partial [] sd n [] v.dims ps (firstSize v.dims (ps 0)) _ _ m ?_ hw.1 hne (by simp) (by simp) hl
      (by intro i st f hi; simpa using h1 i st f hi) ⟨0, by rw [h0]; rfl⟩ hcs hpos hz hzi h
      (by unfold seekFuel; have := volume_nonneg' hw.1; omega) ?_
    · exact ⟨by simp [labels], by simpa using hn⟩
    · rw [wanted_single sd n v.dims ps _ 0 (Dims.volume v.dims) h1, List.length_flatMap]
      have := block_length (g := fun x => (firstSize v.dims (ps 0) (coordsOf v.dims x)).toNat) (le_refl 0) (le_of_lt hne) (le_refl _)
      simp only [List.length_map, List.length_range]
      unfold runFuel
      refine Nat.lt_succ_of_le (this.trans (le_of_eq ?_))
      congr 1
      apply List.map_congr_left
      intro k _
      simp only [firstSize]
      cases (ps 0).bins with
      | none => rfl
      | some q => rfl

theorem flatMap_effect {n : Int} {size : Int → Nat} {g : Int → Nat → Step V} {sched : List (Step V)} (mem : Int → V)
    (hperm : sched.Perm ((intRange 0 n).flatMap (fun x => (List.range (size x)).map (g x))))
    (hinj : ∀ x k x' k', 0 ≤ x → x < n → k < size x → 0 ≤ x' → x' < n → k' < size x' →
      (g x k).cell = (g x' k').cell → x = x' ∧ k = k')
    (hloc : ∀ x k, 0 ≤ x → x < n → k < size x → ∀ m m' : Int → V, m (g x k).cell = m' (g x k).cell → (g x k).fn m = (g x k).fn m') :
    (∀ x k, 0 ≤ x → x < n → k < size x → runSteps mem sched (g x k).cell = (g x k).fn mem) ∧
    ∀ a, (∀ x k, 0 ≤ x → x < n → k < size x → (g x k).cell ≠ a) → runSteps mem sched a = mem a := by
  have hmemS : ∀ s, s ∈ sched ↔ ∃ x k, 0 ≤ x ∧ x < n ∧ k < size x ∧ s = g x k := by
    intro s
    rw [hperm.mem_iff]
    simp only [List.mem_flatMap, mem_intRange, List.mem_map, List.mem_range]
    constructor
    · rintro ⟨x, ⟨h0, h1⟩, k, hk, rfl⟩; exact ⟨x, k, h0, h1, hk, rfl⟩
    · rintro ⟨x, k, h0, h1, hk, rfl⟩; exact ⟨x, ⟨h0, h1⟩, k, hk, rfl⟩
  have hnd : (sched.map Step.cell).Nodup := by
    rw [(hperm.map Step.cell).nodup_iff, List.map_flatMap, List.nodup_flatMap]
    constructor
    · intro x hx
      rw [mem_intRange] at hx
      rw [List.map_map]
      refine List.nodup_range.map_on ?_
      intro k hk k' hk' he
      rw [List.mem_range] at hk hk'
      exact (hinj x k x k' hx.1 hx.2 hk hx.1 hx.2 hk' he).2
    · refine (List.nodup_iff_pairwise_ne.1 (nodup_intRange 0 n)).imp_of_mem ?_
      intro x x' hx hx' hne
      rw [mem_intRange] at hx hx'
      intro a ha ha'
      simp only [List.map_map, List.mem_map, List.mem_range, Function.comp] at ha ha'
      obtain ⟨k, hk, rfl⟩ := ha
      obtain ⟨k', hk', he⟩ := ha'
      exact hne (hinj x k x' k' hx.1 hx.2 hk hx'.1 hx'.2 hk' he.symm).1
  constructor
  · intro x k h0 h1 hk
    refine runSteps_cell (T := sched.map Step.cell) (l := sched) (mem := mem) hnd (fun s hs => List.mem_map_of_mem hs) ?_ _
      ((hmemS _).2 ⟨x, k, h0, h1, hk, rfl⟩)
    intro s hs m m' hc _
    obtain ⟨x, k, h0, h1, hk, rfl⟩ := (hmemS s).1 hs
    exact hloc x k h0 h1 hk m m' hc
  · intro a ha
    apply runSteps_other
    intro hm
    obtain ⟨s, hs, rfl⟩ := List.mem_map.1 hm
    obtain ⟨x, k, h0, h1, hk, rfl⟩ := (hmemS s).1 hs
    exact ha x k h0 h1 hk rfl

/-! ### the created output -/

theorem contiguousLoop_spec : ∀ (l : List (Int × Int)) (acc : Int), (∀ q ∈ l, q.1 ≤ q.2) →
    (Bins.contiguousLoop acc l).map (fun r => r.2 - r.1) = l.map (fun r => r.2 - r.1) ∧
    Bins.Contiguous acc (((Bins.contiguousLoop acc l).map Prod.snd).getLast?.getD acc) (Bins.contiguousLoop acc l)
  | [], acc, _ => ⟨rfl, rfl⟩
  | q :: l, acc, h => by
    obtain ⟨h1, h2⟩ := contiguousLoop_spec l (q.2 + (acc - q.1)) (fun p hp => h p (by simp [hp]))
    have hq := h q (by simp)
    refine ⟨?_, ?_⟩
    · simp only [Bins.contiguousLoop, List.map_cons, h1]
      congr 1
      omega
    · refine ⟨rfl, by simp only; omega, ?_⟩
      simp only [Bins.contiguousLoop, List.map_cons]
      cases hl : ((Bins.contiguousLoop (q.2 + (acc - q.1)) l).map Prod.snd).getLast? with
      | none =>
        have : (Bins.contiguousLoop (q.2 + (acc - q.1)) l) = [] := by simpa using hl
        simp [this, Bins.Contiguous]
      | some z =>
        rw [List.getLast?_cons, hl]
        rw [hl] at h2
        exact h2

theorem binParent_ok {ops : List (Operand V M)} {p : Binned V M} (h : binParent ops = .ok p) :
    .binned p ∈ ops ∧ ((∃ q, .binned q ∈ ops ∧ q.events.table.isSome) → p.events.table.isSome) ∧
    ops.countP (fun o => o.table?.isSome) ≤ 1 := by
  have hmem : ∀ (o : Operand V M) b, o.table? = some b → o = .binned b ∧ b.events.table.isSome := by
    intro o b h
    cases o with
    | dense v f => simp [Operand.table?] at h
    | binned c => simp only [Operand.table?] at h; split at h <;> simp_all
  have hmemb : ∀ (o : Operand V M) b, o.bins? = some b → o = .binned b := by
    intro o b h
    cases o <;> simp_all [Operand.bins?]
  have hcount : ops.countP (fun o => o.table?.isSome) = (ops.filterMap Operand.table?).length := by
    rw [List.length_filterMap_eq_countP]
  simp only [binParent] at h
  rw [hcount]
  cases ht : ops.filterMap Operand.table? with
  | nil =>
    rw [ht] at h
    simp only at h
    have hno : ¬ ∃ q, .binned q ∈ ops ∧ q.events.table.isSome := by
      rintro ⟨q, hq, hs⟩
      have : q ∈ ops.filterMap Operand.table? := List.mem_filterMap.2 ⟨_, hq, by simp [Operand.table?, hs]⟩
      rw [ht] at this
      simp at this
    cases hb : ops.filterMap Operand.bins? with
    | nil => rw [hb] at h; cases h
    | cons b l =>
      rw [hb] at h
      cases h
      have : p ∈ ops.filterMap Operand.bins? := by rw [hb]; simp
      obtain ⟨o, ho, hob⟩ := List.mem_filterMap.1 this
      rw [hmemb o p hob] at ho
      exact ⟨ho, fun hc => absurd hc hno, by simp⟩
  | cons b l =>
    cases l with
    | nil =>
      rw [ht] at h
      cases h
      have : p ∈ ops.filterMap Operand.table? := by rw [ht]; simp
      obtain ⟨o, ho, hob⟩ := List.mem_filterMap.1 this
      obtain ⟨rfl, hs⟩ := hmem o p hob
      exact ⟨ho, fun _ => hs, by simp⟩
    | cons b' l => rw [ht] at h; cases h

theorem inDims_of_subset {s t : Dims} {c : Dim → Int} (h : ∀ p ∈ s, p ∈ t) (hc : InDims t c) : InDims s c :=
  fun d n hm => hc d n (h _ hm)

/-- Index pairs of the parent in the order of the bins of the output. -/
theorem parentPairs_ok {p : Binned V M} {dims : Dims} (hp : p.Good) (hw : WF dims) (hin : ∀ q ∈ p.view.dims, q ∈ dims)
    {old : List (Int × Int)} (h : parentPairs p dims = .ok old) :
    old = (List.range (Dims.volume dims).toNat).map (fun k : Nat => p.bin (coordsOf dims k)) := by
  simp only [parentPairs, bind, Except.bind] at h
  cases hs : asViewStrides p.view dims with
  | error e => rw [hs] at h; cases h
  | ok st =>
    rw [hs] at h
    have hst := asViewStrides_ok hp.view hs
    subst hst
    simp only [Except.ok.injEq] at h
    rw [← h]
    apply List.map_congr_left
    intro k _
    rw [addrAux_broadcast _ hp.view.2.1 hp.view.1.1 hw.1 (labels_subset hin)]
    rfl

theorem bin_congr {p : Binned V M} {c c' : Dim → Int} (h : ∀ d ∈ labels p.view.dims, c d = c' d) : p.bin c = p.bin c' := by
  simp only [Binned.bin, View.addr]
  rw [addrAux_congr h]

theorem pairs_get {p : Binned V M} {dims : Dims} (hw : WF dims) (hin : ∀ q ∈ p.view.dims, q ∈ dims) {c : Dim → Int}
    (hc : InDims dims c) :
    ((List.range (Dims.volume dims).toNat).map (fun k : Nat => p.bin (coordsOf dims k)))[(position dims c).toNat]? =
      some (p.bin c) := by
  obtain ⟨h0, h1⟩ := position_bounds hc
  rw [List.getElem?_map, List.getElem?_range (by omega)]
  simp only [Option.map_some, Option.some.injEq]
  rw [show (((position dims c).toNat : Nat) : Int) = position dims c by omega]
  exact bin_congr (fun d hd => coordsOf_position hw.1 hc d (labels_subset hin d hd))

theorem resize_single {d : Dim} {n x : Int} {e : Dims} (h : Sizes.resize [(d, n)] d x = .ok e) : 0 ≤ x ∧ e = [(d, x)] := by
  simp only [Sizes.resize, Sizes.assign] at h
  split at h
  · cases h
  · simp only [if_true] at h
    cases h
    exact ⟨by omega, rfl⟩

theorem volume_single (d : Dim) (n : Int) : Dims.volume [(d, n)] = n := by simp [Dims.volume]

/-- What is created for the output. -/
theorem create_ok {init : Nat → M} {dims : Dims} {ops : List (Operand V M)} {r : Created M} (hw : WF dims)
    (hg : ∀ o ∈ ops, o.Good) (hin : ∀ o ∈ ops, ∀ p ∈ o.view.dims, p ∈ dims) (h : create init dims ops = .ok r) :
    ∃ parent, binParent ops = .ok parent ∧ .binned parent ∈ ops ∧ r.dims = dims ∧ r.dim = parent.events.dim ∧
      ∃ size, 0 ≤ size ∧ r.eventDims = [(r.dim, size)] ∧ r.indices.length = (Dims.volume dims).toNat ∧
        Bins.Contiguous 0 size r.indices ∧
        (∀ c, InDims dims c → ∃ q, r.indices[(position dims c).toNat]? = some q ∧ q.2 - q.1 = parent.count c) ∧
        (r.table = none ↔ parent.events.table = none) ∧
        ∀ rows, parent.events.table = some rows → parent.view.dims = dims ∧ ∃ rows', r.table = some rows' ∧
          (rows'.length : Int) = size ∧
          ∀ c, InDims dims c → ∀ k : Nat, (k : Int) < parent.count c →
            rows'[((r.bin c).1 + k).toNat]? = rows[((parent.bin c).1 + k).toNat]? := by
  simp only [create, bind, Except.bind] at h
  cases hp : binParent ops with
  | error e => rw [hp] at h; cases h
  | ok p =>
    rw [hp] at h
    simp only at h
    obtain ⟨hpm, -, -⟩ := binParent_ok hp
    have hpg : p.Good := hg _ hpm
    have hpi : ∀ q ∈ p.view.dims, q ∈ dims := hin _ hpm
    cases ho : parentPairs p dims with
    | error e => rw [ho] at h; cases h
    | ok old =>
      rw [ho] at h
      simp only at h
      have hold := parentPairs_ok hpg hw hpi ho
      have hle : ∀ q ∈ old, q.1 ≤ q.2 ∧ 0 ≤ q.1 ∧ q.2 ≤ p.rows := by
        intro q hq
        rw [hold] at hq
        obtain ⟨k, hk, rfl⟩ := List.mem_map.1 hq
        rw [List.mem_range] at hk
        have := hpg.bins _ (inDims_of_subset hpi (coordsOf_inDims hw (k := (k : Int)) (by omega) (by omega)))
        exact ⟨this.2.1, this.1, this.2.2⟩
      obtain ⟨hc1, hc2⟩ := contiguousLoop_spec old 0 (fun q hq => (hle q hq).1)
      generalize hI : Bins.contiguousLoop 0 old = I at *
      change Bins.Contiguous 0 (Bins.sizeFromEnds (I.map Prod.snd)) I at hc2
      generalize hS : Bins.sizeFromEnds (I.map Prod.snd) = size at *
      have hlen : I.length = old.length := by have := congrArg List.length hc1; simpa using this
      have hlen' : old.length = (Dims.volume dims).toNat := by rw [hold]; simp
      have hget : ∀ c, InDims dims c → ∃ q, I[(position dims c).toNat]? = some q ∧ q.2 - q.1 = p.count c := by
        intro c hc
        have h1 := pairs_get (p := p) hw hpi hc
        rw [← hold] at h1
        have h2 := congrArg (fun l => l[(position dims c).toNat]?) hc1
        simp only [List.getElem?_map, h1, Option.map_some] at h2
        cases hi : I[(position dims c).toNat]? with
        | none => rw [hi] at h2; simp at h2
        | some q =>
          rw [hi] at h2
          refine ⟨q, rfl, ?_⟩
          simpa [Binned.count] using h2
      cases he : Sizes.resize p.events.view.dims p.events.dim size with
      | error e => rw [he] at h; cases h
      | ok ev =>
        rw [he] at h
        simp only at h
        rw [hpg.oneDim] at he
        obtain ⟨hs0, rfl⟩ := resize_single he
        cases ht : p.events.table with
        | none =>
          rw [ht] at h
          cases h
          exact ⟨p, rfl, hpm, rfl, rfl, size, hs0, rfl, by rw [hlen, hlen'], hc2, hget, by simp [ht], by simp [ht]⟩
        | some rows =>
          rw [ht] at h
          simp only at h
          split at h
          · cases h
          · rename_i hd
            have hd : p.view.dims = dims := by simpa [Dims.eqDims] using hd
            have hrl := hpg.table rows ht
            split at h
            · rename_i hcheap
              simp only [Bool.and_eq_true, Dims.eqDims, decide_eq_true_eq, volume_single] at hcheap
              obtain ⟨hq1, hq2⟩ := hcheap
              cases h
              refine ⟨p, rfl, hpm, rfl, rfl, size, hs0, rfl, by rw [hlen, hlen'], hc2, hget, by simp [ht], ?_⟩
              intro rows0 hr0
              rw [ht] at hr0
              cases hr0
              refine ⟨hd, rows, rfl, ?_, ?_⟩
              · rw [hrl, Binned.rows, hq1, volume_single]
              · intro c hc k hk
                have h1 := pairs_get (p := p) hw hpi hc
                rw [← hold, ← hq2] at h1
                simp only [Created.bin, List.getD_eq_getElem?_getD, h1, Option.getD_some]
            · have hbnd := Bins.contiguous_bounds I 0 size hc2
              have hdst : ((List.range (Dims.volume [(p.events.dim, size)]).toNat).map init).length = size.toNat := by
                simp [volume_single]
              obtain ⟨out, hco, hol, hrow, -⟩ := Bins.copyRows_spec rows (old.zip I)
                ((List.range (Dims.volume [(p.events.dim, size)]).toNat).map init) (by
                  intro q hq
                  have hq1 := hle _ (List.of_mem_zip hq).1
                  have hq2 := hbnd.2.1 _ (List.of_mem_zip hq).2
                  have hsz : q.1.2 - q.1.1 = q.2.2 - q.2.1 := by
                    obtain ⟨j, hj⟩ := List.getElem?_of_mem hq
                    rw [List.getElem?_zip_eq_some] at hj
                    have h2 := congrArg (fun l => l[j]?) hc1
                    simp only [List.getElem?_map, hj.1, hj.2, Option.map_some, Option.some.injEq] at h2
                    exact h2.symm
                  rw [hdst]
                  refine ⟨hq1.2.1, hq1.1, ?_, hq2.1, ?_, hsz⟩
                  · rw [hrl]; exact hq1.2.2
                  · omega) (by
                  rw [List.pairwise_iff_getElem]
                  intro i j hi hj hij
                  simp only [List.getElem_zip]
                  rw [List.length_zip] at hi hj
                  exact (List.pairwise_iff_getElem.1 hbnd.2.2) i j (by omega) (by omega) hij)
              rw [hco] at h
              cases h
              refine ⟨p, rfl, hpm, rfl, rfl, size, hs0, rfl, by rw [hlen, hlen'], hc2, hget, by simp [ht], ?_⟩
              intro rows0 hr0
              rw [ht] at hr0
              cases hr0
              refine ⟨hd, out, rfl, ?_, ?_⟩
              · rw [hol, hdst]; omega
              · intro c hc k hk
                have h1 := pairs_get (p := p) hw hpi hc
                rw [← hold] at h1
                obtain ⟨q, hq, hqs⟩ := hget c hc
                have hz : (p.bin c, q) ∈ old.zip I := by
                  have : (old.zip I)[(position dims c).toNat]? = some (p.bin c, q) := by
                    rw [List.getElem?_zip_eq_some]; exact ⟨h1, hq⟩
                  exact List.mem_of_getElem? this
                have := hrow _ hz k hk
                simp only [Created.bin, List.getD_eq_getElem?_getD, hq, Option.getD_some]
                exact this

/-! ### success -/

theorem validatePair_complete (dims : Dims) (a b : List Int × (Int → Int × Int)) (hw : Sizes.WF dims) (hd6 : dims.length ≤ 6)
    (hne : 0 < Dims.volume dims)
    (ha : a.1.length = dims.length) (hb : b.1.length = dims.length)
    (hz : NoZeroRun 1 (readDims dims (Fin.cons a.1 (Fin.cons b.1 Fin.elim0) : Fin 2 → List Int)).reverse)
    (h : ∀ c, InDims dims c → (a.2 (addrAux dims a.1 c)).2 - (a.2 (addrAux dims a.1 c)).1 =
      (b.2 (addrAux dims b.1 c)).2 - (b.2 (addrAux dims b.1 c)).1) :
    BinnedIndex.validatePair dims a b = .ok () := by
  have hpos : ∀ p ∈ dims, 0 < p.2 := allPos_of_lt hw.2 (le_refl 0) hne
  obtain ⟨m, hm⟩ := MultiIndex.make_ok (strides := (Fin.cons a.1 (Fin.cons b.1 Fin.elim0) : Fin 2 → List Int)) hd6
  simp only [BinnedIndex.validatePair, bind, Except.bind, hm]
  by_cases hd : dims = []
  · subst hd
    have hm' : m = ⟨0, [(0, 0)], [0]⟩ := by
      simp [MultiIndex.make, readDims, flattenDims, flattenLoopMI, bind, Except.bind] at hm
      exact hm.symm
    subst hm'
    have := h (fun _ => 0) (by intro d n hm; simp at hm)
    simp [Dims.volume, BinnedIndex.validateLoop]
    simpa using this
  · simp only [MultiIndex.make, bind, Except.bind] at hm
    split at hm
    · simp at hm
    rename_i ds hds
    obtain ⟨hne', hs⟩ := flattenDims_dense hpos hd hz hds
    rw [if_neg hne'] at hm
    injection hm with hm
    obtain ⟨p, L, rfl⟩ : ∃ p L, ds = p :: L := by
      cases ds with
      | nil => exact absurd rfl hne'
      | cons p L => exact ⟨p, L, rfl⟩
    have hvol : fvol (p :: L) = Dims.volume dims := by rw [hs.vol, fvol_readDims]
    have hsz : ∀ j, 0 ≤ j → j < Dims.volume dims →
        (a.2 (memAt (p :: L) j 0)).2 - (a.2 (memAt (p :: L) j 0)).1 =
        (b.2 (memAt (p :: L) j 1)).2 - (b.2 (memAt (p :: L) j 1)).1 := by
      intro j h0 h1
      have hmem : memAt (p :: L) j = fun i => addrAux dims
          ((Fin.cons a.1 (Fin.cons b.1 Fin.elim0) : Fin 2 → List Int) i) (coordsOf dims j) := by
        rw [hs.mem _ h0]
        refine memAt_readDims hw (fun i => ?_) h0 h1
        refine Fin.cases ha (fun j => ?_) i
        refine Fin.cases (by simpa) (fun k => k.elim0) j
      rw [hmem]
      exact h _ (coordsOf_inDims hw h0 h1)
    have key : ∀ (n : Nat) (k : Int) (x : MultiIndex 2), MInv (p :: L) k x → 0 ≤ k → k + n ≤ fvol (p :: L) →
        BinnedIndex.validateLoop a.2 b.2 n x = .ok () := by
      intro n
      induction n with
      | zero => intro k x _ _ _; rfl
      | succ n ih =>
        intro k x hx hk hkn
        push_cast at hkn
        have hxd : x.data = memAt (p :: L) k := by
          rw [hx.data, hx.coord]; exact dot_extract _ _ hs.pos hk (by omega)
        simp only [BinnedIndex.validateLoop, hxd]
        rw [if_neg (by rw [not_not]; exact hsz k hk (by omega))]
        refine ih (k + 1) _ (hx.incrementBy hs.pos hk (by omega) (fun hL => ?_)) (by omega) (by omega)
        obtain ⟨q, L', rfl⟩ : ∃ q L', L = q :: L' := by
          cases L with
          | nil => exact absurd rfl hL
          | cons q L' => exact ⟨q, L', rfl⟩
        simp only [dimSizes, List.map_cons]
        rw [extract_cons2 hk hs.pos.head]
        have := Int.emod_lt_of_pos k hs.pos.head
        simp only [List.headD_cons]
        omega
    have h0 : MInv (p :: L) 0 m := by
      rw [← hm]
      refine ⟨rfl, (extract_zero _ hs.pos (by simp)).symm, ?_⟩
      rw [dot_zero _ _ (by simp)]
    exact key _ 0 m h0 (le_refl _) (by omega)

theorem validate_all_complete {dims : Dims} {p0 : BinnedIndex.Operand} {b0} (h0 : p0.bins = some b0) :
    ∀ {l : List BinnedIndex.Operand}, (∀ q ∈ l, ∀ b, q.bins = some b →
      BinnedIndex.validatePair dims (p0.strides, b0.2) (q.strides, b.2) = .ok ()) → BinnedIndex.validateAll dims p0 l = .ok ()
  | [], _ => rfl
  | p1 :: l, h => by
    simp only [BinnedIndex.validateAll, h0]
    cases h1 : p1.bins with
    | none =>
      simp only [bind, Except.bind, Option.isSome_some, if_true]
      exact validate_all_complete h0 (fun q hq => h q (List.mem_cons_of_mem _ hq))
    | some b1 =>
      simp only [bind, Except.bind, h p1 (by simp) b1 h1, Option.isSome_some, if_true]
      exact validate_all_complete h0 (fun q hq => h q (List.mem_cons_of_mem _ hq))

/-- The constructor of the index succeeds if the sizes of bins agree. -/
theorem index_ok {v : View} (hw : v.WF) (hd : v.Distinct) (hd5 : v.dims.length ≤ 5) (hne : 0 < Dims.volume v.dims)
    {ps : Fin (N + 1) → BinnedIndex.Operand} {b0} (h0 : (ps 0).bins = some b0) (hs : (ps 0).strides = v.strides)
    (hl : ∀ i, (ps i).strides.length = v.dims.length)
    (hcs : CommonSizes v.dims ps (firstSize v.dims (ps 0))) (sd : Dim) (n : Int) :
    ∃ m, index v.dims [(sd, n)] sd ps = .ok (some m) := by
  have hpos := allPos_of_lt hw.1.2 (le_refl 0) hne
  simp only [index, bind, Except.bind]
  rw [validate_all_complete h0 (by
    intro q hq b hb
    obtain ⟨j, -, rfl⟩ := List.mem_map.1 hq
    refine validatePair_complete v.dims _ _ hw.1 (by omega) hne (hl 0) (hl j.succ) ?_ ?_
    · rw [hs]
      exact noZeroRun_of_distinct hw hd hpos (Fin.cons (ps j.succ).strides Fin.elim0 : Fin 1 → List Int)
    · intro c hc
      rw [hcs c hc 0 b0.1 b0.2 h0, hcs c hc j.succ b.1 b.2 hb])]
  simp only [sizes_index_single]
  have hz := noZeroRun_of_distinct hw hd hpos (fun i => (ps i.succ).strides)
  have hps : (Fin.cons v.strides (fun i => (ps i.succ).strides) : Fin (N + 1) → List Int) = fun i => (ps i).strides := by
    funext i
    refine Fin.cases ?_ (fun j => ?_) i
    · simp [hs]
    · simp
  rw [hps] at hz
  have hzi : NoZeroRun (([] : Dims).length + 1) (readDims ([] ++ (sd, n) :: []) (bufStrides ps)).reverse := by
    refine .inr ?_
    simp [readDims]
  have hterm := C13_constructor_terminates [] sd n [] v.dims ps (seekFuel v.dims) _ hw.1 hne (by simp) hl ⟨0, by rw [h0]; rfl⟩ hcs hz hzi
    (by unfold seekFuel; omega)
  simp only [List.nil_append, List.length_nil] at hterm
  obtain ⟨ins, hins⟩ := flattenLoop_ok (nf := ((0 : Nat) : Int)) (cap := ndimOpMax)
    (readDims [(sd, n)] (fun i => ((ps i).bins.map Prod.fst).getD [])).reverse 0 [] (by simp [ndimOpMax, readDims_length])
  have hil : ins.length ≤ 1 := by
    have := hins
    simp [readDims, flattenLoopMI, ndimOpMax] at this
    rw [← this]
    simp
  obtain ⟨outs, houts⟩ := flattenLoop_ok (nf := 0) (cap := ndimOpMax - ins.length)
    (readDims v.dims (fun i => (ps i).strides)).reverse 0 [] (by simp [ndimOpMax, readDims_length]; omega)
  obtain ⟨x, hx⟩ : ∃ x, BinnedIndex.make (seekFuel v.dims) [(sd, n)] v.dims 0 ps = .ok x := by
    simp only [BinnedIndex.make, BinnedIndex.make0, bind, Except.bind, flattenDims, hins, houts]
    exact ⟨_, rfl⟩
  rw [hx] at hterm
  cases x with
  | none => exact absurd rfl hterm
  | some m => exact ⟨m, hx⟩

/-- Creating the output succeeds, given a parent. -/
theorem create_succeeds {init : Nat → M} {dims : Dims} {ops : List (Operand V M)} {p : Binned V M} (hw : WF dims)
    (hp : binParent ops = .ok p) (hpg : p.Good) (hpi : ∀ q ∈ p.view.dims, q ∈ dims)
    (ht : p.events.table.isSome → p.view.dims = dims) : ∃ r, create init dims ops = .ok r := by
  obtain ⟨old, ho⟩ : ∃ old, parentPairs p dims = .ok old := by
    simp only [parentPairs, bind, Except.bind]
    rw [asViewStrides_eq hpg.view hw.1 hpi]
    exact ⟨_, rfl⟩
  simp only [create, bind, Except.bind, hp, ho]
  have hold := parentPairs_ok hpg hw hpi ho
  have hle : ∀ q ∈ old, q.1 ≤ q.2 ∧ 0 ≤ q.1 ∧ q.2 ≤ p.rows := by
    intro q hq
    rw [hold] at hq
    obtain ⟨k, hk, rfl⟩ := List.mem_map.1 hq
    rw [List.mem_range] at hk
    have := hpg.bins _ (inDims_of_subset hpi (coordsOf_inDims hw (k := (k : Int)) (by omega) (by omega)))
    exact ⟨this.2.1, this.1, this.2.2⟩
  obtain ⟨hc1, hc2⟩ := contiguousLoop_spec old 0 (fun q hq => (hle q hq).1)
  generalize hI : Bins.contiguousLoop 0 old = I at *
  change Bins.Contiguous 0 (Bins.sizeFromEnds (I.map Prod.snd)) I at hc2
  generalize hS : Bins.sizeFromEnds (I.map Prod.snd) = size at *
  have hbnd := Bins.contiguous_bounds I 0 size hc2
  have he : Sizes.resize p.events.view.dims p.events.dim size = .ok [(p.events.dim, size)] := by
    rw [hpg.oneDim]
    simp only [Sizes.resize, Sizes.assign, if_true]
    rw [if_neg (by omega)]
  rw [he]
  simp only
  cases htab : p.events.table with
  | none => exact ⟨_, rfl⟩
  | some rows =>
    simp only
    rw [if_neg (by simp [Dims.eqDims, ht (by rw [htab]; rfl)])]
    split
    · exact ⟨_, rfl⟩
    · have hdst : ((List.range (Dims.volume [(p.events.dim, size)]).toNat).map init).length = size.toNat := by
        simp [volume_single]
      have hrl := hpg.table rows htab
      obtain ⟨out, hco, -⟩ := Bins.copyRows_spec rows (old.zip I)
        ((List.range (Dims.volume [(p.events.dim, size)]).toNat).map init) (by
          intro q hq
          have hq1 := hle _ (List.of_mem_zip hq).1
          have hq2 := hbnd.2.1 _ (List.of_mem_zip hq).2
          have hsz : q.1.2 - q.1.1 = q.2.2 - q.2.1 := by
            obtain ⟨j, hj⟩ := List.getElem?_of_mem hq
            rw [List.getElem?_zip_eq_some] at hj
            have h2 := congrArg (fun l => l[j]?) hc1
            simp only [List.getElem?_map, hj.1, hj.2, Option.map_some, Option.some.injEq] at h2
            exact h2.symm
          rw [hdst]
          refine ⟨hq1.2.1, hq1.1, ?_, hq2.1, ?_, hsz⟩
          · rw [hrl]; exact hq1.2.2
          · omega) (by
          rw [List.pairwise_iff_getElem]
          intro i j hi hj hij
          simp only [List.getElem_zip]
          rw [List.length_zip] at hi hj
          exact (List.pairwise_iff_getElem.1 hbnd.2.2) i j (by omega) (by omega) hij)
      rw [hco]
      exact ⟨_, rfl⟩

/-- There is a parent if there are bins and at most one table. -/
theorem binParent_succeeds {ops : List (Operand V M)} (hb : ∃ b, .binned b ∈ ops) (ht : ops.countP (fun o => o.table?.isSome) ≤ 1) :
    ∃ p, binParent ops = .ok p := by
  have hcount : ops.countP (fun o => o.table?.isSome) = (ops.filterMap Operand.table?).length := by
    rw [List.length_filterMap_eq_countP]
  rw [hcount] at ht
  simp only [binParent]
  cases h1 : ops.filterMap Operand.table? with
  | nil =>
    simp only
    cases h2 : ops.filterMap Operand.bins? with
    | nil =>
      obtain ⟨b, hb⟩ := hb
      have : b ∈ ops.filterMap Operand.bins? := List.mem_filterMap.2 ⟨_, hb, rfl⟩
      rw [h2] at this
      simp at this
    | cons b l => exact ⟨b, rfl⟩
  | cons b l =>
    cases l with
    | nil => exact ⟨b, rfl⟩
    | cons b' l => rw [h1] at ht; simp at ht

end Scipp.BinnedOps
