import Verif.Lemmas.BinnedTransform
import Mathlib.Data.List.Perm.Subperm
/-!
C101: elementwise operations with binned operands act on every event.
-/
namespace Scipp.Props
open Scipp Sizes BinnedOps
variable {V M : Type} {N : Nat}

theorem c101_view {o : BinnedOps.Operand V M} (h : o.Good) : o.view.WF ∧ Dim.invalid ∉ labels o.view.dims := by
  cases o with
  | dense v f => exact h
  | binned b => exact ⟨h.view, h.labels⟩

theorem c101_setup {init : Nat → M} {ins : Fin (N + 1) → BinnedOps.Operand V M} {r : Created M} {ps m}
    (hg : ∀ i, (ins i).Good) (h : setup init ins = .ok (r, ps, m)) :
    ∃ st : Fin (N + 1) → List Int, Sizes.WF r.dims ∧ (∀ p, p ∈ r.dims ↔ ∃ i, p ∈ (ins i).view.dims) ∧
      create init r.dims ((List.finRange (N + 1)).map ins) = .ok r ∧
      (∀ i, st i = (labels r.dims).map (strideOf (ins i).view.dims (ins i).view.strides)) ∧
      ps = Fin.cons r.params (fun i => params (ins i) (st i)) ∧
      index r.dims r.eventDims r.dim ps = .ok m := by
  simp only [setup, bind, Except.bind] at h
  split at h
  · cases h
  rename_i dims hm
  split at h
  · cases h
  rename_i r' hr
  split at h
  · cases h
  rename_i st hst
  split at h
  · cases h
  rename_i m' hm'
  simp only [Except.ok.injEq, Prod.mk.injEq] at h
  obtain ⟨rfl, rfl, rfl⟩ := h
  obtain ⟨hwf, -, hcont⟩ := mergeAll_ok (c101_view (hg 0)).1.1 (c101_view (hg 0)).2 (by
    intro b hb
    obtain ⟨i, _, rfl⟩ := List.mem_map.1 hb
    exact ⟨(c101_view (hg i.succ)).1.1, (c101_view (hg i.succ)).2⟩) hm
  have hcont' : ∀ p, p ∈ dims ↔ ∃ i, p ∈ (ins i).view.dims := by
    intro p
    rw [hcont]
    constructor
    · rintro (h | ⟨b, hb, hp⟩)
      · exact ⟨0, h⟩
      · obtain ⟨i, _, rfl⟩ := List.mem_map.1 hb
        exact ⟨i.succ, hp⟩
    · rintro ⟨i, hp⟩
      revert hp
      refine Fin.cases (fun hp => .inl hp) (fun j hp => .inr ⟨_, List.mem_map.2 ⟨j, List.mem_finRange j, rfl⟩, hp⟩) i
  obtain ⟨p, -, -, hd, -⟩ := create_ok hwf (by
    intro o ho
    obtain ⟨i, _, rfl⟩ := List.mem_map.1 ho
    exact hg i) (by
    intro o ho q hq
    obtain ⟨i, _, rfl⟩ := List.mem_map.1 ho
    exact (hcont' q).2 ⟨i, hq⟩) hr
  have hs := allStrides_ok (fun i => (c101_view (hg i)).1) hst
  subst hd
  exact ⟨st, hwf, hcont', hr, hs, rfl, hm'⟩

/-- Lengths of strides of the parameters. -/
theorem c101_params {ins : Fin N → BinnedOps.Operand V M} (hg : ∀ i, (ins i).Good) {dims : Dims} {st : Fin N → List Int}
    (hs : ∀ i, st i = (labels dims).map (strideOf (ins i).view.dims (ins i).view.strides)) (i : Fin N) :
    (params (ins i) (st i)).strides.length = dims.length ∧
    ∀ s f, (params (ins i) (st i)).bins = some (s, f) → ∃ b, ins i = .binned b ∧ s = b.events.view.strides ∧ s.length = 1 ∧
      f = fun k => b.pairs (b.view.offset + k) := by
  refine ⟨by simp [params, hs i, labels], ?_⟩
  intro s f h
  have hgi := hg i
  cases hi : ins i with
  | dense v g => rw [hi] at h; simp [params, Operand.bins?] at h
  | binned b =>
    rw [hi] at h hgi
    simp only [params, Operand.bins?, Option.map_some, Option.some.injEq, Prod.mk.injEq] at h
    obtain ⟨rfl, rfl⟩ := h
    refine ⟨b, rfl, rfl, ?_, rfl⟩
    have h1 := hgi.buffer.2.1
    rw [hgi.oneDim] at h1
    simpa using h1

/-- What an operand contributes for the event at position `x`, `k`. -/
theorem c101_read {ins : Fin N → BinnedOps.Operand V M} (hg : ∀ i, (ins i).Good) {dims : Dims} (hw : Sizes.WF dims)
    (hin : ∀ i, ∀ p ∈ (ins i).view.dims, p ∈ dims) {st : Fin N → List Int}
    (hs : ∀ i, st i = (labels dims).map (strideOf (ins i).view.dims (ins i).view.strides)) (x : Int) (k : Nat) (i : Fin N) :
    (ins i).read (eventIdx dims (fun i => params (ins i) (st i)) x k i) = (ins i).event (coordsOf dims x) k := by
  have hb := addrAux_broadcast (t := dims) (coordsOf dims x) (c101_view (hg i)).1.2.1 (c101_view (hg i)).1.1.1 hw.1
    (labels_subset (hin i))
  have hgi := hg i
  simp only [eventIdx, params, hs i]
  cases hi : ins i with
  | dense v f =>
    rw [hi] at hb
    simp only [Operand.bins?, Option.map_none, Operand.read, Operand.event, View.addr]
    change f (v.offset + addrAux dims (List.map (strideOf v.dims v.strides) (labels dims)) _) = _
    rw [show (addrAux dims (List.map (strideOf v.dims v.strides) (labels dims)) (coordsOf dims x)) = _ from hb]
    rfl
  | binned b =>
    rw [hi] at hb hgi
    simp only [Operand.bins?, Option.map_some, Operand.read, Operand.event, Binned.addr, View.addr, Binned.bin]
    rw [show (addrAux dims (List.map (strideOf (Operand.binned b).view.dims (Operand.binned b).view.strides) (labels dims))
      (coordsOf dims x)) = _ from hb]
    have h1 := hgi.buffer.2.1
    rw [hgi.oneDim] at h1
    simp only [List.length_cons, List.length_nil] at h1
    match hst : b.events.view.strides, h1 with
    | [s], _ => rw [hgi.oneDim]; simp [addrAux, BinnedOps.Operand.view, BinnedOps.Operand.read]

/-- **C101** (operations creating a new variable): whatever blocks of bins the scheduler makes and however they are interleaved, the
result has exactly the dims of the operands; its bin at any coordinates has as many events as the corresponding bin of every binned
operand; its `k`-th event is the operation applied to the `k`-th events of the binned operands and the values of the dense operands
at these coordinates; and the bins are adjacent and fill the new buffer. -/
theorem C101_transform_partial (op : (Fin (N + 1) → V) → V) (init : Nat → M) (ins : Fin (N + 1) → BinnedOps.Operand V M) (r : Created M)
    (mem mem' : Int → V) (hg : ∀ i, (ins i).Good) (h : BinnedOps.Transform op init ins r mem mem') :
    (∀ p, p ∈ r.dims ↔ ∃ i, p ∈ (ins i).view.dims) ∧
    (∀ c, InDims r.dims c → (∀ i b, ins i = .binned b → (r.bin c).2 - (r.bin c).1 = b.count c) ∧
      ∀ k : Nat, (k : Int) < (r.bin c).2 - (r.bin c).1 → mem' ((r.bin c).1 + k) = op (fun i => (ins i).event c k)) ∧
    Bins.Contiguous 0 (Dims.volume r.eventDims) r.indices := by
  obtain ⟨ps, m, hset, hpar⟩ := h
  obtain ⟨st, hw, hcont, hcr, hs, hps, hidx⟩ := c101_setup hg hset
  have hin : ∀ i, ∀ p ∈ (ins i).view.dims, p ∈ r.dims := fun i p hp => (hcont p).2 ⟨i, hp⟩
  obtain ⟨p, -, -, -, -, size, hs0, hev, hlen, hcon, hget, -, -⟩ := create_ok hw (by
    intro o ho
    obtain ⟨i, _, rfl⟩ := List.mem_map.1 ho
    exact hg i) (by
    intro o ho q hq
    obtain ⟨i, _, rfl⟩ := List.mem_map.1 ho
    exact hin i q hq) hcr
  rw [hev, volume_single]
  refine ⟨hcont, ?_, hcon⟩
  have hbnd := Bins.contiguous_bounds _ _ _ hcon
  have hv : (View.fresh r.dims).WF := fresh_WF hw
  have hbin : ∀ c, InDims r.dims c → firstSize r.dims (ps 0) c = (r.bin c).2 - (r.bin c).1 := by
    intro c _
    rw [hps]
    simp only [firstSize, Fin.cons_zero, Created.params, Created.bin, ← position_eq]
  have hle : ∀ c, InDims r.dims c → 0 ≤ (r.bin c).1 ∧ (r.bin c).1 ≤ (r.bin c).2 := by
    intro c hc
    obtain ⟨q, hq, -⟩ := hget c hc
    have := hbnd.2.1 q (List.mem_of_getElem? hq)
    simp only [Created.bin, List.getD_eq_getElem?_getD, hq, Option.getD_some]
    omega
  rw [hev] at hidx
  have h1 : ∀ i s f, (ps i).bins = some (s, f) → s.length = 1 := by
    intro i
    rw [hps]
    refine Fin.cases ?_ (fun j => ?_) i
    · intro s f hb
      simp only [Fin.cons_zero, Created.params, hev, Option.some.injEq, Prod.mk.injEq] at hb
      obtain ⟨rfl, -⟩ := hb
      simp [shape, rowMajor, rowMajorAux]
    · intro s f hb
      simp only [Fin.cons_succ] at hb
      obtain ⟨b, -, -, h, -⟩ := (c101_params hg hs j).2 s f hb
      exact h
  obtain ⟨hcs, hblock⟩ := block (v := View.fresh r.dims) hv (fresh_distinct hw.1) (ps := ps)
    (b0 := (rowMajor (shape r.eventDims), fun k => r.indices.getD k.toNat (0, 0)))
    (by rw [hps]; rfl) (by rw [hps]; rfl) (by
      intro i
      rw [hps]
      refine Fin.cases ?_ (fun j => ?_) i
      · exact hv.2.1
      · simp only [Fin.cons_succ]; exact (c101_params hg hs j).1) h1
    (by intro c hc; rw [show (View.fresh r.dims).dims = r.dims from rfl, hbin c hc]; have := hle c hc; omega) hs0 hidx
  change CommonSizes r.dims ps (firstSize r.dims (ps 0)) at hcs
  change 0 < Dims.volume r.dims → _ at hblock
  intro c hc
  have hpb := position_bounds hc
  have hco := coordsOf_position hw.1 hc
  constructor
  · intro i b hi
    rw [← hbin c hc, ← hcs c hc i.succ b.events.view.strides (fun k => b.pairs (b.view.offset + k)) (by
      rw [hps]; simp [params, hi, Operand.bins?])]
    rw [hps]
    simp only [Fin.cons_succ, params, hs i]
    rw [addrAux_broadcast _ (c101_view (hg i)).1.2.1 (c101_view (hg i)).1.1.1 hw.1 (labels_subset (hin i)), hi]
    rfl
  · intro k hk
    obtain ⟨sched, hperm, rfl⟩ := parallel_perm hpar (g := fun x =>
      (List.range (firstSize r.dims (ps 0) (coordsOf r.dims x)).toNat).map (fun k => BinnedOps.callStep op ins (eventIdx r.dims ps x k))) (by
      intro b e h0 hbe hev'
      have hb' := hblock (by omega) b e h0 hbe hev'
      change BinnedIndex.runBlock (seekFuel r.dims) (runFuel r.dims (ps 0)) m b e = _ at hb'
      rw [hb']
      simp only [Option.map_some, List.map_flatMap, List.map_map, Function.comp_def]
      rfl)
    have hcell : ∀ x j, 0 ≤ x → x < Dims.volume r.dims →
        (BinnedOps.callStep op ins (eventIdx r.dims ps x j)).cell = (r.bin (coordsOf r.dims x)).1 + j := by
      intro x j h0 h1
      rw [hps]
      simp only [BinnedOps.callStep, eventIdx, Fin.cons_zero, Created.params, hev, shape, List.map_cons, List.map_nil, rowMajor,
        rowMajorAux, List.headD_cons, mul_one, Created.bin, position_eq]
    have hpos : ∀ x, 0 ≤ x → x < Dims.volume r.dims → position r.dims (coordsOf r.dims x) = x :=
      fun x h0 h1 => position_coordsOf hw h0 h1
    have hbinx : ∀ x, 0 ≤ x → x < Dims.volume r.dims →
        firstSize r.dims (ps 0) (coordsOf r.dims x) = (r.bin (coordsOf r.dims x)).2 - (r.bin (coordsOf r.dims x)).1 :=
      fun x h0 h1 => hbin _ (coordsOf_inDims hw h0 h1)
    have heff := flatMap_effect (size := fun x => (firstSize r.dims (ps 0) (coordsOf r.dims x)).toNat)
      (g := fun x j => BinnedOps.callStep op ins (eventIdx r.dims ps x j)) mem hperm (by
        intro x j x' j' h0 h1 hj h0' h1' hj' he
        rw [hcell x j h0 h1, hcell x' j' h0' h1'] at he
        simp only [hbinx x h0 h1] at hj
        simp only [hbinx x' h0' h1'] at hj'
        have hi : ∀ y, 0 ≤ y → y < Dims.volume r.dims → ∃ hy : y.toNat < r.indices.length, r.bin (coordsOf r.dims y) = r.indices[y.toNat] := by
          intro y hy0 hy1
          refine ⟨by omega, ?_⟩
          simp only [Created.bin, hpos y hy0 hy1]
          rw [List.getD_eq_getElem?_getD, List.getElem?_eq_getElem (by omega), Option.getD_some]
        obtain ⟨hx, ex⟩ := hi x h0 h1
        obtain ⟨hx', ex'⟩ := hi x' h0' h1'
        have hpw := List.pairwise_iff_getElem.1 hbnd.2.2
        by_cases hlt : x < x'
        · have := hpw x.toNat x'.toNat hx hx' (by omega)
          rw [← ex, ← ex'] at this
          omega
        · by_cases hlt' : x' < x
          · have := hpw x'.toNat x.toNat hx' hx (by omega)
            rw [← ex, ← ex'] at this
            omega
          · have : x = x' := by omega
            subst this
            exact ⟨rfl, by omega⟩) (by
        intro x j _ _ _ m m' _
        rfl)
    have hk' : k < (firstSize r.dims (ps 0) (coordsOf r.dims (position r.dims c))).toNat := by
      rw [hbinx _ hpb.1 hpb.2]
      simp only [Created.bin, hpos _ hpb.1 hpb.2] at hk ⊢
      omega
    have := heff.1 (position r.dims c) k hpb.1 hpb.2 hk'
    rw [hcell _ _ hpb.1 hpb.2] at this
    have hbc : r.bin (coordsOf r.dims (position r.dims c)) = r.bin c := by
      simp only [Created.bin, hpos _ hpb.1 hpb.2]
    rw [hbc] at this
    rw [this]
    simp only [BinnedOps.callStep]
    congr 1
    funext i
    have hread := c101_read hg hw hin hs (position r.dims c) k i
    have hcs' : eventIdx r.dims ps (position r.dims c) k i.succ =
        eventIdx r.dims (fun i => params (ins i) (st i)) (position r.dims c) k i := by
      rw [hps]; simp only [eventIdx, Fin.cons_succ]
    rw [hcs', hread]
    have hci : ∀ d ∈ labels (ins i).view.dims, coordsOf r.dims (position r.dims c) d = c d :=
      fun d hd => hco d (labels_subset (hin i) d hd)
    cases hi : ins i with
    | dense v f =>
      rw [hi] at hci
      have hci' : ∀ d ∈ labels v.dims, coordsOf r.dims (position r.dims c) d = c d := hci
      simp only [Operand.event, View.addr]
      rw [addrAux_congr hci']
    | binned b =>
      rw [hi] at hci
      simp only [Operand.event, Binned.addr]
      rw [bin_congr hci]

theorem c101_tables {ins : Fin N → BinnedOps.Operand V M}
    (h : ((List.finRange N).map ins).countP (fun o => o.table?.isSome) ≤ 1) (i j : Fin N)
    (hi : (ins i).table?.isSome) (hj : (ins j).table?.isSome) : i = j := by
  by_contra hne
  rw [List.countP_map, List.countP_eq_length_filter] at h
  have hsub : ([i, j] : List (Fin N)).Subperm ((List.finRange N).filter ((fun o => o.table?.isSome) ∘ ins)) := by
    refine List.Nodup.subperm (by simpa using hne) ?_
    intro x hx
    simp only [List.mem_cons, List.not_mem_nil, or_false] at hx
    rw [List.mem_filter]
    refine ⟨List.mem_finRange x, ?_⟩
    rcases hx with rfl | rfl
    · exact hi
    · exact hj
  have := hsub.length_le
  simp only [List.length_cons, List.length_nil] at this
  omega

/-- **C101** (metadata of events): the events of the result have coords, attrs and masks if and only if one operand is binned with a table of
events; it is the only one, its dims are those of the result in the same order, and the metadata of every event is that of the
corresponding event. -/
theorem C101_metadata (init : Nat → M) (ins : Fin (N + 1) → BinnedOps.Operand V M) (r : Created M) (ps m)
    (hg : ∀ i, (ins i).Good) (h : setup init ins = .ok (r, ps, m)) :
    (r.table.isSome ↔ ∃ i b, ins i = .binned b ∧ b.events.table.isSome) ∧
    (∀ i j b b', ins i = .binned b → ins j = .binned b' → b.events.table.isSome → b'.events.table.isSome → i = j) ∧
    ∀ i b rows, ins i = .binned b → b.events.table = some rows → b.view.dims = r.dims ∧ ∃ rows', r.table = some rows' ∧
      ∀ c, InDims r.dims c → ∀ k : Nat, (k : Int) < b.count c →
        rows'[((r.bin c).1 + k).toNat]? = rows[((b.bin c).1 + k).toNat]? := by
  obtain ⟨st, hw, hcont, hcr, -⟩ := c101_setup hg h
  obtain ⟨p, hp, hpm, -, -, size, -, -, -, -, -, hnone, hrows⟩ := create_ok hw (by
    intro o ho
    obtain ⟨i, _, rfl⟩ := List.mem_map.1 ho
    exact hg i) (by
    intro o ho q hq
    obtain ⟨i, _, rfl⟩ := List.mem_map.1 ho
    exact (hcont q).2 ⟨i, hq⟩) hcr
  obtain ⟨-, hpt, hcount⟩ := binParent_ok hp
  have huniq : ∀ i j b b', ins i = .binned b → ins j = .binned b' → b.events.table.isSome → b'.events.table.isSome → i = j := by
    intro i j b b' hi hj hb hb'
    refine c101_tables hcount i j ?_ ?_
    · rw [hi]; simp [Operand.table?, hb]
    · rw [hj]; simp [Operand.table?, hb']
  obtain ⟨ip, -, hip⟩ := List.mem_map.1 hpm
  refine ⟨?_, huniq, ?_⟩
  · have : r.table.isSome ↔ p.events.table.isSome := by
      cases h1 : r.table <;> cases h2 : p.events.table <;> simp_all
    rw [this]
    constructor
    · intro hs; exact ⟨ip, p, hip, hs⟩
    · rintro ⟨i, b, hi, hb⟩
      exact hpt ⟨b, List.mem_map.2 ⟨i, List.mem_finRange i, hi⟩, hb⟩
  · intro i b rows hi hb
    have hps := hpt ⟨b, List.mem_map.2 ⟨i, List.mem_finRange i, hi⟩, by rw [hb]; rfl⟩
    have := huniq i ip b p hi hip (by rw [hb]; rfl) hps
    subst this
    rw [hi] at hip
    cases hip
    obtain ⟨h1, rows', h2, -, h3⟩ := hrows rows hb
    exact ⟨h1, rows', h2, h3⟩

/-- **C101** (errors): corresponding bins of different size and more than one table of events are refused. -/
theorem C101_refused (init : Nat → M) (ins : Fin (N + 1) → BinnedOps.Operand V M) (hg : ∀ i, (ins i).Good) (i j : Fin (N + 1))
    (b b' : Binned V M) (hi : ins i = .binned b) (hj : ins j = .binned b')
    (h : (i ≠ j ∧ b.events.table.isSome ∧ b'.events.table.isSome) ∨
      ∃ c, (∀ l, InDims (ins l).view.dims c) ∧ b.count c ≠ b'.count c) (r ps m) :
    setup init ins ≠ .ok (r, ps, some m) := by
  intro hset
  rcases h with ⟨hne, h1, h2⟩ | ⟨c, hc, hne⟩
  · exact hne ((C101_metadata init ins r ps _ hg hset).2.1 i j b b' hi hj h1 h2)
  · obtain ⟨st, hw, hcont, hcr, hs, hps, hidx⟩ := c101_setup hg hset
    have hcr' : InDims r.dims c := by
      intro d n hm
      obtain ⟨l, hl⟩ := (hcont (d, n)).1 hm
      exact hc l d n hl
    have hin : ∀ i, ∀ p ∈ (ins i).view.dims, p ∈ r.dims := fun i p hp => (hcont p).2 ⟨i, hp⟩
    simp only [BinnedOps.index, bind, Except.bind] at hidx
    split at hidx
    · cases hidx
    rename_i u hv
    have hcs := common_sizes (v := View.fresh r.dims) (fresh_WF hw) (fresh_distinct hw.1) (ps := ps)
      (b0 := (rowMajor (shape r.eventDims), fun k => r.indices.getD k.toNat (0, 0)))
      (by rw [hps]; rfl) (by rw [hps]; rfl) (by
        intro i
        rw [hps]
        refine Fin.cases ?_ (fun j => ?_) i
        · exact (fresh_WF hw).2.1
        · simp only [Fin.cons_succ]; exact (c101_params hg hs j).1) hv
    have key : ∀ i (b : Binned V M), ins i = .binned b → b.count c =
        (r.indices.getD (addrAux r.dims (View.fresh r.dims).strides c).toNat (0, 0)).2 -
          (r.indices.getD (addrAux r.dims (View.fresh r.dims).strides c).toNat (0, 0)).1 := by
      intro i b hi
      have := hcs c hcr' i.succ b.events.view.strides (fun k => b.pairs (b.view.offset + k)) (by
        rw [hps]; simp [params, hi, Operand.bins?])
      refine Eq.trans ?_ this
      rw [hps]
      simp only [Fin.cons_succ, params, hs i]
      change _ = (b.pairs (b.view.offset + addrAux r.dims _ c)).2 - (b.pairs (b.view.offset + addrAux r.dims _ c)).1
      rw [addrAux_broadcast _ (c101_view (hg i)).1.2.1 (c101_view (hg i)).1.1.1 hw.1 (labels_subset (hin i)), hi]
      rfl
    exact hne ((key i b hi).trans (key j b' hj).symm)

/-- **C101** (success): if the dims of the operands can be merged into at most five dims, some operand is binned, corresponding bins
of all binned operands have the same size and there is at most one table of events, having the dims of the result, then there is a result. -/
theorem C101_succeeds (op : (Fin (N + 1) → V) → V) (init : Nat → M) (ins : Fin (N + 1) → BinnedOps.Operand V M) (dims : Dims)
    (mem : Int → V) (hg : ∀ i, (ins i).Good)
    (hm : mergeAll (ins 0).view.dims ((List.finRange N).map (fun i => (ins i.succ).view.dims)) = .ok dims)
    (hlen : dims.length ≤ 5) (hne : 0 < Dims.volume dims) (hb : ∃ i b, ins i = .binned b)
    (hsz : ∀ c, InDims dims c → ∀ i j b b', ins i = .binned b → ins j = .binned b' → b.count c = b'.count c)
    (ht : ∀ i j b b', ins i = .binned b → ins j = .binned b' → b.events.table.isSome → b'.events.table.isSome → i = j)
    (htd : ∀ i b, ins i = .binned b → b.events.table.isSome → b.view.dims = dims) :
    ∃ r mem', BinnedOps.Transform op init ins r mem mem' ∧ r.dims = dims := by
  obtain ⟨hw, -, hcont⟩ := mergeAll_ok (c101_view (hg 0)).1.1 (c101_view (hg 0)).2 (by
    intro b hb
    obtain ⟨i, _, rfl⟩ := List.mem_map.1 hb
    exact ⟨(c101_view (hg i.succ)).1.1, (c101_view (hg i.succ)).2⟩) hm
  have hin : ∀ i, ∀ p ∈ (ins i).view.dims, p ∈ dims := by
    intro i p
    refine Fin.cases (fun hp => (hcont p).2 (.inl hp))
      (fun j hp => (hcont p).2 (.inr ⟨_, List.mem_map.2 ⟨j, List.mem_finRange j, rfl⟩, hp⟩)) i
  have hcount : ((List.finRange (N + 1)).map ins).countP (fun o => o.table?.isSome) ≤ 1 := by
    rw [List.countP_map, List.countP_eq_length_filter]
    by_contra hlt
    have hnd : ((List.finRange (N + 1)).filter ((fun o => o.table?.isSome) ∘ ins)).Nodup := (List.nodup_finRange _).filter _
    have htab : ∀ o : BinnedOps.Operand V M, o.table?.isSome → ∃ b, o = .binned b ∧ b.events.table.isSome := by
      intro o ho
      cases o with
      | dense v f => simp [Operand.table?] at ho
      | binned b =>
        refine ⟨b, rfl, ?_⟩
        simp only [Operand.table?] at ho
        split at ho <;> simp_all
    match hl : (List.finRange (N + 1)).filter ((fun o => o.table?.isSome) ∘ ins) with
    | [] => rw [hl] at hlt; simp at hlt
    | [_] => rw [hl] at hlt; simp at hlt
    | i :: j :: l =>
      have hi : i ∈ (List.finRange (N + 1)).filter ((fun o => o.table?.isSome) ∘ ins) := by rw [hl]; simp
      have hj : j ∈ (List.finRange (N + 1)).filter ((fun o => o.table?.isSome) ∘ ins) := by rw [hl]; simp
      obtain ⟨b, hb1, hb2⟩ := htab _ (List.mem_filter.1 hi).2
      obtain ⟨b', hb1', hb2'⟩ := htab _ (List.mem_filter.1 hj).2
      have := ht i j b b' hb1 hb1' hb2 hb2'
      rw [hl] at hnd
      simp [this] at hnd
  obtain ⟨ib, bb, hbb⟩ := hb
  obtain ⟨p, hp⟩ := binParent_succeeds (ops := (List.finRange (N + 1)).map ins)
    ⟨bb, List.mem_map.2 ⟨ib, List.mem_finRange _, hbb⟩⟩ hcount
  obtain ⟨hpm, -, -⟩ := binParent_ok hp
  obtain ⟨ip, -, hip⟩ := List.mem_map.1 hpm
  have hpg : p.Good := by have := hg ip; rw [hip] at this; exact this
  have hpi : ∀ q ∈ p.view.dims, q ∈ dims := by have := hin ip; rw [hip] at this; exact this
  obtain ⟨r, hr⟩ := create_succeeds (init := init) hw hp hpg hpi (htd ip p hip)
  obtain ⟨p', hp', -, hd, hdim, size, hs0, hev, hil, hcon, hget, -, -⟩ := create_ok hw (by
    intro o ho
    obtain ⟨i, _, rfl⟩ := List.mem_map.1 ho
    exact hg i) (by
    intro o ho q hq
    obtain ⟨i, _, rfl⟩ := List.mem_map.1 ho
    exact hin i q hq) hr
  rw [hp] at hp'
  cases hp'
  subst hd
  have hst := allStrides_eq (ins := fun i => (⟨(ins i).view, none⟩ : Scipp.Operand V)) hw.1 (fun i => (c101_view (hg i)).1) hin
  obtain ⟨st, hst1, hst2⟩ : ∃ st : Fin (N + 1) → List Int, BinnedOps.strides ins r.dims = .ok st ∧
      ∀ i, st i = (labels r.dims).map (strideOf (ins i).view.dims (ins i).view.strides) := ⟨_, hst, fun i => rfl⟩
  obtain ⟨ps, hps⟩ : ∃ ps : Fin (N + 2) → BinnedIndex.Operand, ps = Fin.cons r.params (fun i => params (ins i) (st i)) := ⟨_, rfl⟩
  have hv : (View.fresh r.dims).WF := fresh_WF hw
  have hbin : ∀ c, InDims r.dims c → firstSize r.dims (ps 0) c = p.count c := by
    intro c hc
    obtain ⟨q, hq, hqs⟩ := hget c hc
    rw [hps]
    simp only [firstSize, Fin.cons_zero, Created.params, ← position_eq, List.getD_eq_getElem?_getD, hq, Option.getD_some]
    exact hqs
  have hcs : CommonSizes r.dims ps (firstSize r.dims (ps 0)) := by
    intro c hc i s f hi
    rw [hbin c hc]
    revert hi
    refine Fin.cases ?_ (fun j => ?_) i
    · intro hi
      rw [← hbin c hc, firstSize, hi]
    · intro hi
      rw [hps] at hi ⊢
      simp only [Fin.cons_succ] at hi ⊢
      obtain ⟨b, hjb, -, -, rfl⟩ := (c101_params hg hst2 j).2 s f hi
      rw [← hsz c hc j ip b p hjb hip]
      simp only [params, hst2 j]
      rw [addrAux_broadcast _ (c101_view (hg j)).1.2.1 (c101_view (hg j)).1.1.1 hw.1 (labels_subset (hin j)), hjb]
      rfl
  have hl : ∀ i, (ps i).strides.length = r.dims.length := by
    intro i
    rw [hps]
    refine Fin.cases ?_ (fun j => ?_) i
    · exact hv.2.1
    · simp only [Fin.cons_succ]; exact (c101_params hg hst2 j).1
  obtain ⟨m, hidx⟩ := index_ok (v := View.fresh r.dims) hv (fresh_distinct hw.1) hlen hne (ps := ps)
    (b0 := (rowMajor (shape r.eventDims), fun k => r.indices.getD k.toNat (0, 0)))
    (by rw [hps]; rfl) (by rw [hps]; rfl) hl hcs r.dim size
  obtain ⟨-, hblock⟩ := block (v := View.fresh r.dims) hv (fresh_distinct hw.1) (ps := ps)
    (b0 := (rowMajor (shape r.eventDims), fun k => r.indices.getD k.toNat (0, 0)))
    (by rw [hps]; rfl) (by rw [hps]; rfl) hl (by
      intro i
      rw [hps]
      refine Fin.cases ?_ (fun j => ?_) i
      · intro s f hb
        simp only [Fin.cons_zero, Created.params, hev, Option.some.injEq, Prod.mk.injEq] at hb
        obtain ⟨rfl, -⟩ := hb
        simp [shape, rowMajor, rowMajorAux]
      · intro s f hb
        simp only [Fin.cons_succ] at hb
        obtain ⟨b, -, -, h, -⟩ := (c101_params hg hst2 j).2 s f hb
        exact h)
    (by
      intro c hc
      change 0 ≤ firstSize r.dims (ps 0) c
      rw [hbin c hc]
      have := hpg.bins c (inDims_of_subset hpi hc)
      simp only [Binned.count]
      omega) hs0 hidx
  refine ⟨r, _, ⟨ps, m, ?_, parallel_exists (volume_nonneg' hw) (g := fun x =>
      (List.range (firstSize r.dims (ps 0) (coordsOf r.dims x)).toNat).map (fun k => BinnedOps.callStep op ins (eventIdx r.dims ps x k)))
      mem ?_⟩, rfl⟩
  · simp only [setup, bind, Except.bind, hm, hr, hst1]
    rw [← hps, hev]
    have hidx' : BinnedOps.index r.dims [(r.dim, size)] r.dim ps = .ok (some m) := hidx
    rw [hidx']
  · intro b e h0 hbe hev'
    have hb' := hblock hne b e h0 hbe hev'
    change BinnedIndex.runBlock (seekFuel r.dims) (runFuel r.dims (ps 0)) m b e = _ at hb'
    rw [hb']
    simp only [Option.map_some, List.map_flatMap, List.map_map, Function.comp_def]
    rfl

/-- **C101** (independence of the schedule): two runs give the same bins, the same metadata and the same events. -/
theorem C101_schedule (op : (Fin (N + 1) → V) → V) (init : Nat → M) (ins : Fin (N + 1) → BinnedOps.Operand V M) (r r' : Created M)
    (mem₁ mem₂ mem₁' mem₂' : Int → V) (hg : ∀ i, (ins i).Good) (h₁ : BinnedOps.Transform op init ins r mem₁ mem₁')
    (h₂ : BinnedOps.Transform op init ins r' mem₂ mem₂') :
    r = r' ∧ ∀ c, InDims r.dims c → ∀ k : Nat, (k : Int) < (r.bin c).2 - (r.bin c).1 →
      mem₁' ((r.bin c).1 + k) = mem₂' ((r.bin c).1 + k) := by
  have hr : r = r' := by
    obtain ⟨ps, m, h, -⟩ := h₁
    obtain ⟨ps', m', h', -⟩ := h₂
    rw [h] at h'
    injection h' with h'
    exact (Prod.mk.injEq .. ▸ h').1
  subst hr
  refine ⟨rfl, fun c hc k hk => ?_⟩
  rw [((C101_transform_partial op init ins r _ _ hg h₁).2.1 c hc).2 k hk,
    ((C101_transform_partial op init ins r _ _ hg h₂).2.1 c hc).2 k hk]

/-- Two bins with two and one events, out of order in the buffer, and a dense operand with two more elements along `2`. -/
def c101Bins (t : Option (List Nat)) : Binned Int Nat :=
  ⟨⟨[(1, 2)], [1], 0, false⟩, fun j => if j = 0 then (1, 3) else (0, 1), ⟨5, ⟨[(5, 3)], [1], 0, false⟩, fun a => 100 * (a + 1), t⟩⟩
def c101Ins (t : Option (List Nat)) (d : Dims) : Fin 2 → BinnedOps.Operand Int Nat :=
  Fin.cons (.binned (c101Bins t)) (Fin.cons (.dense ⟨d, [1], 0, false⟩ (fun a => a)) Fin.elim0)

theorem c101_bins_good (t : Option (List Nat)) (ht : ∀ l, t = some l → l.length = 3) : (c101Bins t).Good := by
  refine ⟨by simp [c101Bins, View.WF, Sizes.WF, labels], by simp [c101Bins, labels, Dim.invalid],
    by simp [c101Bins, View.WF, Sizes.WF, labels], rfl, ?_, ?_⟩
  · intro c hc
    have := hc 1 2 (by simp [c101Bins])
    simp only [c101Bins, Binned.bin, Binned.rows, View.addr, addrAux, Dims.volume, List.map_cons, List.map_nil]
    split <;> simp
  · intro l hl
    rw [show (c101Bins t).rows = 3 from rfl, ht l hl]
    rfl

theorem c101_ins_good (t : Option (List Nat)) (ht : ∀ l, t = some l → l.length = 3) (d : Dim) (hd : d ≠ Dim.invalid) (n : Int) (hn : 0 ≤ n)
    (i : Fin 2) : (c101Ins t [(d, n)] i).Good := by
  refine Fin.cases (c101_bins_good t ht) (fun j => Fin.cases ?_ (fun l => l.elim0) j) i
  exact ⟨by simp [View.WF, Sizes.WF, labels, hn], by simpa [labels] using hd.symm⟩

/-- Four bins. -/
example : ∃ r mem', BinnedOps.Transform (fun x => x 0 + x 1) (fun _ => 0) (c101Ins none [(2, 2)]) r (fun _ => 0) mem' ∧
    r.dims = [(1, 2), (2, 2)] :=
  C101_succeeds _ _ _ _ _ (c101_ins_good none (by simp) 2 (by decide) 2 (by decide)) (by decide) (by decide) (by decide) ⟨0, _, rfl⟩
    (by
      intro c _ i j b b' hi hj
      revert hi hj
      refine Fin.cases ?_ (fun i => Fin.cases ?_ (fun l => l.elim0) i) i
      · refine Fin.cases ?_ (fun j => Fin.cases ?_ (fun l => l.elim0) j) j
        · intro hi hj; rw [hi] at hj; cases hj; rfl
        · intro _ hj; simp [c101Ins] at hj
      · intro hi; simp [c101Ins] at hi)
    (by
      intro i j b b' hi _ hb
      revert hi
      refine Fin.cases ?_ (fun i => Fin.cases ?_ (fun l => l.elim0) i) i
      · intro hi; simp only [c101Ins, Fin.cons_zero, Operand.binned.injEq] at hi; subst hi; simp [c101Bins] at hb
      · intro hi; simp [c101Ins] at hi)
    (by
      intro i b hi hb
      revert hi
      refine Fin.cases ?_ (fun i => Fin.cases ?_ (fun l => l.elim0) i) i
      · intro hi; simp only [c101Ins, Fin.cons_zero, Operand.binned.injEq] at hi; subst hi; simp [c101Bins] at hb
      · intro hi; simp [c101Ins] at hi)

/-- The calls: output, event and dense element. -/
example : ∃ r ps m, setup (fun _ => 0) (c101Ins none [(2, 2)]) = .ok (r, ps, some m) ∧ r.indices = [(0, 2), (2, 4), (4, 5), (5, 6)] ∧
    (m.runBlock 4 7 0 4).map (List.map (fun v => [v 0, v 1, v 2])) =
      some [[0, 1, 0], [1, 2, 0], [2, 1, 1], [3, 2, 1], [4, 0, 0], [5, 0, 1]] :=
  ⟨_, _, _, rfl, rfl, rfl⟩

/-- A table of events: its rows follow the events. -/
example : ∃ r ps m, setup (fun _ => 0) (c101Ins (some [7, 8, 9]) [(1, 2)]) = .ok (r, ps, some m) ∧ r.indices = [(0, 2), (2, 3)] ∧
    r.table = some [8, 9, 7] :=
  ⟨_, _, _, rfl, rfl, rfl⟩

/-- Bins of different size. -/
example : setup (fun _ => 0) (Fin.cons (.binned (c101Bins none)) (Fin.cons (.binned { c101Bins none with pairs := fun _ => (0, 1) })
    Fin.elim0) : Fin 2 → BinnedOps.Operand Int Nat) = .error .binned := rfl

/-! ### in place -/

/-- Address of the `k`-th event of the bin at position `x`. -/
theorem c101_addr {b : Binned V M} (hg : b.Good) {dims : Dims} (hw : Sizes.WF dims) (hin : ∀ p ∈ b.view.dims, p ∈ dims) {st : List Int}
    (hs : st = (labels dims).map (strideOf b.view.dims b.view.strides)) {ps : Fin N → BinnedIndex.Operand} {i : Fin N}
    (hp : ps i = params (Operand.binned b) st) (x : Int) (k : Nat) :
    b.events.view.offset + eventIdx dims ps x k i = b.addr (coordsOf dims x) k := by
  have := c101_read (N := 1) (ins := fun _ => Operand.binned (M := M)
    ({ view := b.view, pairs := b.pairs, events := ⟨b.events.dim, b.events.view, id, b.events.table⟩ } : Binned Int M))
    (fun _ => ⟨hg.view, hg.labels, hg.buffer, hg.oneDim, hg.bins, hg.table⟩) hw (fun _ => hin) (st := fun _ => st) (fun _ => hs) x k 0
  simp only [Operand.event, BinnedOps.Operand.read, id_eq] at this
  rw [show b.addr (coordsOf dims x) k = Binned.addr (⟨b.view, b.pairs, ⟨b.events.dim, b.events.view, id, b.events.table⟩⟩ : Binned Int M)
    (coordsOf dims x) k from rfl, ← this]
  simp only [eventIdx, hp]
  rfl

/-- The inputs of an in-place operation when the output has all dims. -/
theorem c101_in_setup {out : Binned V M} {ins : Fin N → Input V M} {dims : Dims} {ps m} (hg : out.Good)
    (hi : ∀ i, (ins i).operand.Good) (hin : ∀ i, ∀ p ∈ (ins i).operand.view.dims, p ∈ out.view.dims)
    (h : BinnedOps.inPlaceSetup out ins = .ok (dims, ps, m)) :
    ∃ st : Fin N → List Int, dims = out.view.dims ∧
      (∀ i, st i = (labels out.view.dims).map (strideOf (ins i).operand.view.dims (ins i).operand.view.strides)) ∧
      ps = Fin.cons (params (Operand.binned out) out.view.strides) (fun i => params (ins i).operand (st i)) ∧
      BinnedOps.index out.view.dims out.events.view.dims out.events.dim ps = .ok m := by
  simp only [BinnedOps.inPlaceSetup, bind, Except.bind] at h
  rw [mergeAll_of_includes hg.view.1 hg.labels (by
    intro b hb
    obtain ⟨i, -, rfl⟩ := List.mem_map.1 hb
    exact ⟨(c101_view (hi i)).1.1, hin i⟩)] at h
  simp only at h
  rw [asViewStrides_eq hg.view hg.view.1.1 (fun p hp => hp), map_strideOf_self hg.view.2.1 hg.view.1.1] at h
  simp only at h
  split at h
  · cases h
  rename_i st hst
  split at h
  · cases h
  rename_i m' hm'
  simp only [Except.ok.injEq, Prod.mk.injEq] at h
  obtain ⟨rfl, rfl, rfl⟩ := h
  exact ⟨st, rfl, allStrides_ok (fun i => (c101_view (hi i)).1) hst, rfl, hm'⟩

/-- Reading an input while the operation is in progress. -/
theorem c101_in_read {ins : Fin N → Input V M} (hi : ∀ i, (ins i).operand.Good) {dims : Dims} (hw : Sizes.WF dims)
    (hin : ∀ i, ∀ p ∈ (ins i).operand.view.dims, p ∈ dims) {st : Fin N → List Int}
    (hs : ∀ i, st i = (labels dims).map (strideOf (ins i).operand.view.dims (ins i).operand.view.strides))
    (mem : Int → V) (x : Int) (k : Nat) (i : Fin N) :
    (ins i).read mem (eventIdx dims (fun i => params (ins i).operand (st i)) x k i) = (ins i).event mem (coordsOf dims x) k := by
  simp only [Input.read, Input.event]
  split
  · cases ho : (ins i).operand with
    | dense v f =>
      have h := hi i
      have h' := hin i
      have hs' := hs i
      rw [ho] at h h' hs'
      have := c101_read (N := 1) (ins := fun _ => Operand.dense (M := M) v mem) (fun _ => h) hw (fun _ => h') (st := fun _ => st i)
        (fun _ => hs') x k 0
      simp only [Operand.event, BinnedOps.Operand.read] at this
      refine Eq.trans ?_ this
      simp only [eventIdx, ho]
      rfl
    | binned b =>
      have h := hi i
      have h' := hin i
      have hs' := hs i
      rw [ho] at h h' hs'
      exact congrArg mem (c101_addr h hw h' hs' (ps := fun i => params (ins i).operand (st i)) (i := i) (by simp only [ho]) x k)
  · exact c101_read hi hw hin hs x k i

theorem c101_in_place {op : V → (Fin N → V) → V} {out : Binned V M} {ins : Fin N → Input V M} {mem mem' : Int → V} {dims ps m}
    (hg : out.Good) (hd : out.view.Distinct) (hdis : out.Disjoint) (hne : 0 < Dims.volume out.view.dims)
    (hi : ∀ i, (ins i).operand.Good) (hin : ∀ i, ∀ p ∈ (ins i).operand.view.dims, p ∈ out.view.dims)
    (hsame : ∀ i, (ins i).shared = true → (ins i).operand.Same out) (hset : BinnedOps.inPlaceSetup out ins = .ok (dims, ps, some m))
    (h : BinnedOps.transformInPlaceImpl op out ins dims ps m mem mem') :
    (∀ c, InDims out.view.dims c → ∀ k : Nat, (k : Int) < out.count c →
      mem' (out.addr c k) = op (mem (out.addr c k)) (fun i => (ins i).event mem c k)) ∧
    ∀ a, (∀ c, InDims out.view.dims c → ∀ k : Nat, (k : Int) < out.count c → out.addr c k ≠ a) → mem' a = mem a := by
  obtain ⟨st, rfl, hs, hps, hidx⟩ := c101_in_setup hg hi hin hset
  have hw := hg.view.1
  have hp0 : ps 0 = params (Operand.binned out) out.view.strides := by rw [hps]; rfl
  have hfs : ∀ c, firstSize out.view.dims (ps 0) c = out.count c := by
    intro c
    rw [hp0]
    simp only [firstSize, params, Operand.bins?, Option.map_some]
    rfl
  have h1 : ∀ i s f, (ps i).bins = some (s, f) → s.length = 1 := by
    intro i
    rw [hps]
    refine Fin.cases ?_ (fun j => ?_) i
    · intro s f hb
      simp only [Fin.cons_zero] at hb
      obtain ⟨b, -, -, h, -⟩ := (c101_params (N := 1) (ins := fun _ => Operand.binned out) (fun _ => hg) (dims := out.view.dims)
        (st := fun _ => out.view.strides) (fun _ => (map_strideOf_self hg.view.2.1 hw.1).symm) 0).2 s f hb
      exact h
    · intro s f hb
      simp only [Fin.cons_succ] at hb
      obtain ⟨b, -, -, h, -⟩ := (c101_params (ins := fun i => (ins i).operand) hi hs j).2 s f hb
      exact h
  have hl : ∀ i, (ps i).strides.length = out.view.dims.length := by
    intro i
    rw [hps]
    refine Fin.cases ?_ (fun j => ?_) i
    · exact hg.view.2.1
    · simp only [Fin.cons_succ]; exact (c101_params (ins := fun i => (ins i).operand) hi hs j).1
  have hpos : ∀ c, InDims out.view.dims c → 0 ≤ firstSize out.view.dims (ps 0) c := by
    intro c hc
    rw [hfs]
    have := hg.bins c hc
    simp only [Binned.count]
    omega
  have hn : 0 ≤ out.rows := volume_nonneg' hg.buffer.1
  rw [hg.oneDim] at hidx
  have hbins : (ps 0).bins = some (out.events.view.strides, fun k => out.pairs (out.view.offset + k)) := by
    rw [hp0]; rfl
  have hst0 : (ps 0).strides = out.view.strides := by rw [hp0]; rfl
  obtain ⟨-, hblock⟩ := block hg.view hd hbins hst0 hl h1 hpos hn hidx
  have hserial := serial hg.view hd hbins hst0 hl h1 hpos hn hidx hne
  obtain ⟨sched, hperm, rfl⟩ : ∃ sched : List (Step V), sched.Perm ((intRange 0 (Dims.volume out.view.dims)).flatMap (fun x =>
      (List.range (firstSize out.view.dims (ps 0) (coordsOf out.view.dims x)).toNat).map (fun k =>
        BinnedOps.callInPlaceStep op out ins (eventIdx out.view.dims ps x k)))) ∧ mem' = runSteps mem sched := by
    simp only [BinnedOps.transformInPlaceImpl] at h
    split at h
    · obtain ⟨e, calls, he, hr, rfl⟩ := h
      obtain ⟨e', he', hr'⟩ := hserial
      rw [he] at he'
      cases he'
      rw [hr] at hr'
      cases hr'
      refine ⟨_, ?_, rfl⟩
      simp only [List.map_flatMap, List.map_map, Function.comp_def]
      exact List.Perm.refl _
    · refine parallel_perm h ?_
      intro b e h0 hbe hev'
      rw [hblock hne b e h0 hbe hev']
      simp only [Option.map_some, List.map_flatMap, List.map_map, Function.comp_def]
  have hcell : ∀ x j, out.events.view.offset + eventIdx out.view.dims ps x j 0 = out.addr (coordsOf out.view.dims x) j := by
    intro x j
    exact c101_addr hg hw (fun p hp => hp) (map_strideOf_self hg.view.2.1 hw.1).symm hp0 x j
  have hread : ∀ mem x j i, (ins i).read mem (eventIdx out.view.dims ps x j i.succ) = (ins i).event mem (coordsOf out.view.dims x) j := by
    intro mem x j i
    rw [← c101_in_read hi hw hin hs mem x j i]
    simp only [eventIdx, hps, Fin.cons_succ]
  have hev : ∀ mem mem' : Int → V, ∀ c k i, mem (out.addr c k) = mem' (out.addr c k) → (ins i).event mem c k = (ins i).event mem' c k := by
    intro mem mem' c k i he
    simp only [Input.event]
    split
    · rename_i hsh
      obtain ⟨b, ho, e1, e2, e3, e4, e5⟩ := hsame i hsh
      rw [ho]
      have : b.addr c k = out.addr c k := by
        simp only [Binned.addr, Binned.bin, View.addr, e1, e2, e3, e4, e5]
      simp only [this, he]
    · rfl
  have heff := flatMap_effect (size := fun x => (firstSize out.view.dims (ps 0) (coordsOf out.view.dims x)).toNat)
    (g := fun x j => BinnedOps.callInPlaceStep op out ins (eventIdx out.view.dims ps x j)) mem hperm (by
      intro x j x' j' h0 h1 hj h0' h1' hj' he
      simp only [BinnedOps.callInPlaceStep, hcell] at he
      rw [hfs] at hj hj'
      obtain ⟨ha, hb⟩ := hdis _ _ (coordsOf_inDims hw h0 h1) (coordsOf_inDims hw h0' h1') j j' (by omega) (by omega) he
      refine ⟨?_, hb⟩
      rw [← position_coordsOf hw h0 h1, ← position_coordsOf hw h0' h1']
      exact position_congr ha) (by
      intro x j h0 h1 hj m m' hm
      simp only [BinnedOps.callInPlaceStep, hcell, hread] at hm ⊢
      rw [hm]
      congr 1
      funext i
      exact hev m m' _ _ i hm)
  have hco : ∀ c, InDims out.view.dims c → ∀ k : Nat, out.addr (coordsOf out.view.dims (position out.view.dims c)) k = out.addr c k ∧
      out.count (coordsOf out.view.dims (position out.view.dims c)) = out.count c := by
    intro c hc k
    have : out.bin (coordsOf out.view.dims (position out.view.dims c)) = out.bin c := by
      simp only [Binned.bin, View.addr]
      rw [addrAux_congr (coordsOf_position hw.1 hc)]
    simp only [Binned.addr, Binned.count, this, and_self]
  have hevc : ∀ c, InDims out.view.dims c → ∀ i (k : Nat),
      (ins i).event mem (coordsOf out.view.dims (position out.view.dims c)) k = (ins i).event mem c k := by
    intro c hc i k
    have hcc : ∀ d ∈ labels (ins i).operand.view.dims, coordsOf out.view.dims (position out.view.dims c) d = c d :=
      fun d hd => coordsOf_position hw.1 hc d (labels_subset (hin i) d hd)
    simp only [Input.event]
    cases ho : (ins i).operand with
    | dense v f =>
      rw [ho] at hcc
      simp only [Operand.event, View.addr, addrAux_congr hcc]
      rw [addrAux_congr (s := v.dims) hcc]
    | binned b =>
      rw [ho] at hcc
      have : b.bin (coordsOf out.view.dims (position out.view.dims c)) = b.bin c := by
        simp only [Binned.bin, View.addr]
        rw [addrAux_congr (s := b.view.dims) hcc]
      simp only [Operand.event, Binned.addr, this]
  constructor
  · intro c hc k hk
    have hb := position_bounds hc
    have := heff.1 (position out.view.dims c) k hb.1 hb.2 (by
      rw [hfs, (hco c hc k).2]; omega)
    simp only [BinnedOps.callInPlaceStep, hcell, hread, (hco c hc k).1] at this
    rw [this]
    congr 1
    funext i
    exact hevc c hc i k
  · intro a ha
    refine heff.2 a ?_
    intro x k h0 h1 hk
    simp only [BinnedOps.callInPlaceStep, hcell]
    rw [hfs] at hk
    exact ha _ (coordsOf_inDims hw h0 h1) k (by omega)

/-- Copying the inputs does not change what they contribute. -/
theorem c101_clone (x : Input V M) (mem mem' : Int → V) (h : x.operand.Good) :
    (x.clone mem).shared = false ∧ (x.clone mem).operand.Good ∧ (x.clone mem).operand.view = x.operand.view ∧
      (∀ c k, (x.clone mem).event mem' c k = x.event mem c k) ∧
      ∀ b, x.operand = .binned b → ∃ b', (x.clone mem).operand = .binned b' ∧ ∀ c, b'.count c = b.count c := by
  simp only [Input.clone]
  split
  · rename_i hs
    cases ho : x.operand with
    | dense v f =>
      rw [ho] at h
      exact ⟨rfl, h, rfl, fun c k => by simp [Input.event, hs, ho, Operand.event], by simp⟩
    | binned b =>
      rw [ho] at h
      refine ⟨rfl, ⟨h.view, h.labels, h.buffer, h.oneDim, h.bins, h.table⟩, rfl, fun c k => by simp [Input.event, hs, ho, Operand.event]; rfl, ?_⟩
      rintro b' hb'
      cases hb'
      exact ⟨_, rfl, fun c => rfl⟩
  · rename_i hs
    refine ⟨by simpa using hs, h, rfl, fun c k => by simp [Input.event, hs], fun b hb => ⟨b, hb, fun c => rfl⟩⟩

theorem c101_included {out : Binned V M} {ins : Fin N → Input V M} (hg : out.Good) (hi : ∀ i, (ins i).operand.Good) :
    (List.finRange N).any (fun i => !Sizes.includes out.view.dims (ins i).operand.view.dims) = false ↔
      ∀ i, ∀ p ∈ (ins i).operand.view.dims, p ∈ out.view.dims := by
  rw [List.any_eq_false]
  simp only [List.mem_finRange, forall_const, Bool.not_eq_true, Bool.not_eq_false']
  refine forall_congr' fun i => ?_
  rw [includes_iff hg.view.1.1 (c101_view (hi i)).1.1.1]

/-- **C101** (operations in place): whatever blocks of bins the scheduler makes and however they are interleaved, the `k`-th event of
every bin becomes the operation applied to its old value and to what the inputs have for it, and no other element of the buffer
changes. Partial: inputs in the same memory must be the very same bins or must be found by the check for overlap (see
`C101_wrong_in_place_overlap`), and the buffers must have a single dim. -/
theorem C101_in_place_partial (op : V → (Fin N → V) → V) (out : Binned V M) (ins : Fin N → Input V M) (mem mem' : Int → V)
    (hg : out.Good) (hd : out.view.Distinct) (hdis : out.Disjoint) (hne : 0 < Dims.volume out.view.dims)
    (hi : ∀ i, (ins i).operand.Good)
    (hsep : ∀ i, (ins i).shared = true → (ins i).operand.Same out ∨ (ins i).overlaps out = true)
    (h : BinnedOps.transformInPlace op out ins mem (.ok mem')) :
    (∀ c, InDims out.view.dims c → ∀ k : Nat, (k : Int) < out.count c →
      mem' (out.addr c k) = op (mem (out.addr c k)) (fun i => (ins i).event mem c k)) ∧
    ∀ a, (∀ c, InDims out.view.dims c → ∀ k : Nat, (k : Int) < out.count c → out.addr c k ≠ a) → mem' a = mem a := by
  simp only [BinnedOps.transformInPlace] at h
  split at h
  · cases h
  rename_i hinc
  have hin := (c101_included hg hi).1 (by simpa using hinc)
  split at h
  · cases h
  simp only [BinnedOps.TransformInPlace] at h
  split at h
  · cases h
  split at h
  · cases h
  · rename_i dims ps m hset
    obtain ⟨mem'', himpl, hm⟩ := h
    cases hm
    by_cases ho : (List.finRange N).any (fun i => (ins i).overlaps out) = true
    · rw [if_pos ho] at hset himpl
      have hc := fun i => c101_clone (ins i) mem mem (hi i)
      have := c101_in_place hg hd hdis hne (fun i => (hc i).2.1) (fun i => by rw [(hc i).2.2.1]; exact hin i)
        (fun i hs => by rw [(hc i).1] at hs; cases hs) hset himpl
      simpa only [(hc _).2.2.2.1] using this
    · rw [if_neg ho] at hset himpl
      refine c101_in_place hg hd hdis hne hi hin (fun i hs => ?_) hset himpl
      refine (hsep i hs).resolve_right (fun hov => ho ?_)
      rw [List.any_eq_true]
      exact ⟨i, List.mem_finRange i, hov⟩
  · cases h

/-- **C101** (errors of operations in place): an input with a dim the output does not have, or of other length, is refused, and so are
readonly outputs and bins of different size. -/
theorem C101_in_place_refused (op : V → (Fin N → V) → V) (out : Binned V M) (ins : Fin N → Input V M) (mem : Int → V)
    (r : Except Err (Int → V)) (hg : out.Good) (hd : out.view.Distinct) (hi : ∀ i, (ins i).operand.Good)
    (h : BinnedOps.transformInPlace op out ins mem r) :
    ((∃ i, ∃ p ∈ (ins i).operand.view.dims, p ∉ out.view.dims) → r = .error .dimension) ∧
    ((∀ i, ∀ p ∈ (ins i).operand.view.dims, p ∈ out.view.dims) → (out.view.readonly ∨ out.events.view.readonly) → r = .error .readonly) ∧
    ((∃ i b c, (ins i).operand = .binned b ∧ InDims out.view.dims c ∧ b.count c ≠ out.count c) → ∀ mem', r ≠ .ok mem') := by
  have hany := c101_included hg hi
  refine ⟨?_, ?_, ?_⟩
  · rintro ⟨i, p, hp, hnp⟩
    simp only [BinnedOps.transformInPlace] at h
    split at h
    · exact h
    · rename_i hx
      exact absurd (hany.1 (by simpa using hx) i p hp) hnp
  · intro hin hro
    simp only [BinnedOps.transformInPlace, hany.2 hin] at h
    simpa [hro] using h
  · rintro ⟨i, b, c, hb, hc, hne⟩ mem' rfl
    simp only [BinnedOps.transformInPlace] at h
    split at h
    · cases h
    rename_i hinc
    have hin := hany.1 (by simpa using hinc)
    split at h
    · cases h
    simp only [BinnedOps.TransformInPlace] at h
    split at h
    · cases h
    have key : ∀ (ins' : Fin N → Input V M), (∀ i, (ins' i).operand.Good) → (∀ i, ∀ p ∈ (ins' i).operand.view.dims, p ∈ out.view.dims) →
        (∃ b', (ins' i).operand = .binned b' ∧ b'.count c = b.count c) → ∀ dims ps m, BinnedOps.inPlaceSetup out ins' ≠ .ok (dims, ps, some m) := by
      intro ins' hi' hin' ⟨b', hb', hcb⟩ dims ps m hset
      obtain ⟨st, rfl, hs, hps, hidx⟩ := c101_in_setup hg hi' hin' hset
      have hw := hg.view.1
      simp only [BinnedOps.index, bind, Except.bind] at hidx
      split at hidx
      · cases hidx
      rename_i u hv
      have hcs := common_sizes hg.view hd (ps := ps)
        (b0 := (out.events.view.strides, fun k => out.pairs (out.view.offset + k)))
        (by rw [hps]; rfl) (by rw [hps]; rfl) (by
          intro i
          rw [hps]
          refine Fin.cases ?_ (fun j => ?_) i
          · exact hg.view.2.1
          · simp only [Fin.cons_succ]; exact (c101_params (ins := fun i => (ins' i).operand) hi' hs j).1) hv
      have := hcs c hc i.succ b'.events.view.strides (fun k => b'.pairs (b'.view.offset + k)) (by
        rw [hps]; simp [params, hb', Operand.bins?])
      rw [hps] at this
      simp only [Fin.cons_succ, params, hs i] at this
      rw [addrAux_broadcast _ (c101_view (hi' i)).1.2.1 (c101_view (hi' i)).1.1.1 hw.1 (labels_subset (hin' i)), hb'] at this
      apply hne
      rw [← hcb]
      exact this
    split at h
    · cases h
    · rename_i dims ps m hset
      by_cases ho : (List.finRange N).any (fun i => (ins i).overlaps out) = true
      · rw [if_pos ho] at hset
        have hcl := fun i => c101_clone (ins i) mem mem (hi i)
        obtain ⟨b', hb', hcb⟩ := (hcl i).2.2.2.2 b hb
        exact key _ (fun i => (hcl i).2.1) (fun i => by rw [(hcl i).2.2.1]; exact hin i) ⟨b', hb', hcb c⟩ _ _ _ hset
      · rw [if_neg ho] at hset
        exact key _ hi hin ⟨b, hb, rfl⟩ _ _ _ hset
    · cases h

/-- **C101** (success of operations in place). -/
theorem C101_in_place_succeeds (op : V → (Fin N → V) → V) (out : Binned V M) (ins : Fin N → Input V M) (mem : Int → V)
    (hg : out.Good) (hd : out.view.Distinct) (hlen : out.view.dims.length ≤ 5) (hne : 0 < Dims.volume out.view.dims)
    (hi : ∀ i, (ins i).operand.Good) (hin : ∀ i, ∀ p ∈ (ins i).operand.view.dims, p ∈ out.view.dims)
    (hro : out.view.readonly = false ∧ out.events.view.readonly = false)
    (hov : N ≤ 1 ∨ ∀ i, (ins i).overlaps out = false)
    (hsz : ∀ i b c, (ins i).operand = .binned b → InDims out.view.dims c → b.count c = out.count c) :
    ∃ mem', BinnedOps.transformInPlace op out ins mem (.ok mem') := by
  have key : ∀ (ins' : Fin N → Input V M), (∀ i, (ins' i).operand.Good) → (∀ i, ∀ p ∈ (ins' i).operand.view.dims, p ∈ out.view.dims) →
      (∀ i b c, (ins' i).operand = .binned b → InDims out.view.dims c → b.count c = out.count c) →
      ∃ ps m mem', BinnedOps.inPlaceSetup out ins' = .ok (out.view.dims, ps, some m) ∧ BinnedOps.transformInPlaceImpl op out ins' out.view.dims ps m mem mem' := by
    intro ins' hi' hin' hsz'
    have hw := hg.view.1
    have hst := allStrides_eq (ins := fun i => (⟨(ins' i).operand.view, none⟩ : Scipp.Operand V)) hw.1 (fun i => (c101_view (hi' i)).1) hin'
    obtain ⟨st, hst1, hs⟩ : ∃ st : Fin N → List Int, BinnedOps.strides (fun i => (ins' i).operand) out.view.dims = .ok st ∧
        ∀ i, st i = (labels out.view.dims).map (strideOf (ins' i).operand.view.dims (ins' i).operand.view.strides) := ⟨_, hst, fun i => rfl⟩
    obtain ⟨ps, hps⟩ : ∃ ps : Fin (N + 1) → BinnedIndex.Operand,
      ps = Fin.cons (params (Operand.binned out) out.view.strides) (fun i => params (ins' i).operand (st i)) := ⟨_, rfl⟩
    have hp0 : ps 0 = params (Operand.binned out) out.view.strides := by rw [hps]; rfl
    have hfs : ∀ c, firstSize out.view.dims (ps 0) c = out.count c := by
      intro c
      rw [hp0]
      simp only [firstSize, params, Operand.bins?, Option.map_some]
      rfl
    have hl : ∀ i, (ps i).strides.length = out.view.dims.length := by
      intro i
      rw [hps]
      refine Fin.cases ?_ (fun j => ?_) i
      · exact hg.view.2.1
      · simp only [Fin.cons_succ]; exact (c101_params (ins := fun i => (ins' i).operand) hi' hs j).1
    have h1 : ∀ i s f, (ps i).bins = some (s, f) → s.length = 1 := by
      intro i
      rw [hps]
      refine Fin.cases ?_ (fun j => ?_) i
      · intro s f hb
        simp only [Fin.cons_zero] at hb
        obtain ⟨b, -, -, h, -⟩ := (c101_params (N := 1) (ins := fun _ => Operand.binned out) (fun _ => hg) (dims := out.view.dims)
          (st := fun _ => out.view.strides) (fun _ => (map_strideOf_self hg.view.2.1 hw.1).symm) 0).2 s f hb
        exact h
      · intro s f hb
        simp only [Fin.cons_succ] at hb
        obtain ⟨b, -, -, h, -⟩ := (c101_params (ins := fun i => (ins' i).operand) hi' hs j).2 s f hb
        exact h
    have hpos : ∀ c, InDims out.view.dims c → 0 ≤ firstSize out.view.dims (ps 0) c := by
      intro c hc
      rw [hfs]
      have := hg.bins c hc
      simp only [Binned.count]
      omega
    have hcs : CommonSizes out.view.dims ps (firstSize out.view.dims (ps 0)) := by
      intro c hc i s f hif
      rw [hfs]
      revert hif
      refine Fin.cases ?_ (fun j => ?_) i
      · intro hif
        rw [← hfs c, firstSize, hif]
      · intro hif
        rw [hps] at hif ⊢
        simp only [Fin.cons_succ] at hif ⊢
        obtain ⟨b, hjb, -, -, rfl⟩ := (c101_params (ins := fun i => (ins' i).operand) hi' hs j).2 s f hif
        rw [← hsz' j b c hjb hc]
        simp only [params, hs j]
        rw [addrAux_broadcast _ (c101_view (hi' j)).1.2.1 (c101_view (hi' j)).1.1.1 hw.1 (labels_subset (hin' j)), hjb]
        rfl
    have hbins : (ps 0).bins = some (out.events.view.strides, fun k => out.pairs (out.view.offset + k)) := by
      rw [hp0]; rfl
    have hst0 : (ps 0).strides = out.view.strides := by rw [hp0]; rfl
    obtain ⟨m, hidx⟩ := index_ok hg.view hd hlen hne hbins hst0 hl hcs out.events.dim out.rows
    have hn : 0 ≤ out.rows := volume_nonneg' hg.buffer.1
    obtain ⟨-, hblock⟩ := block hg.view hd hbins hst0 hl h1 hpos hn hidx
    obtain ⟨e, he, hr⟩ := serial hg.view hd hbins hst0 hl h1 hpos hn hidx hne
    obtain ⟨mem', hm'⟩ : ∃ mem', BinnedOps.transformInPlaceImpl op out ins' out.view.dims ps m mem mem' := by
      simp only [BinnedOps.transformInPlaceImpl]
      split
      · exact ⟨_, e, _, he, hr, rfl⟩
      · refine ⟨_, parallel_exists (volume_nonneg' hw) (g := fun x => (List.range (firstSize out.view.dims (ps 0)
          (coordsOf out.view.dims x)).toNat).map (fun k => BinnedOps.callInPlaceStep op out ins' (eventIdx out.view.dims ps x k))) mem ?_⟩
        intro b e h0 hbe hev'
        rw [hblock hne b e h0 hbe hev']
        simp only [Option.map_some, List.map_flatMap, List.map_map, Function.comp_def]
    refine ⟨ps, m, mem', ?_, hm'⟩
    simp only [BinnedOps.inPlaceSetup, bind, Except.bind]
    rw [mergeAll_of_includes hg.view.1 hg.labels (by
      intro b hb
      obtain ⟨i, -, rfl⟩ := List.mem_map.1 hb
      exact ⟨(c101_view (hi' i)).1.1, hin' i⟩)]
    simp only
    rw [asViewStrides_eq hg.view hg.view.1.1 (fun p hp => hp), map_strideOf_self hg.view.2.1 hg.view.1.1]
    simp only
    rw [hst1]
    simp only
    rw [← hps, hg.oneDim, hidx]
  by_cases ho : (List.finRange N).any (fun i => (ins i).overlaps out) = true
  · have hc := fun i => c101_clone (ins i) mem mem (hi i)
    obtain ⟨ps, m, mem', h1, h2⟩ := key (fun i => (ins i).clone mem) (fun i => (hc i).2.1) (fun i => by rw [(hc i).2.2.1]; exact hin i) (by
      intro i b c hb hcd
      cases hop : (ins i).operand with
      | dense v f =>
        exfalso
        simp only [Input.clone, hop] at hb
        split at hb
        · cases hb
        · rw [hop] at hb; cases hb
      | binned b' =>
        obtain ⟨b'', hb'', hcc⟩ := (hc i).2.2.2.2 b' hop
        rw [hb] at hb''
        cases hb''
        rw [hcc, hsz i b' c hop hcd])
    refine ⟨mem', ?_⟩
    have hN : N = 1 := by
      rcases hov with h | h
      · rw [List.any_eq_true] at ho
        obtain ⟨i, -, -⟩ := ho
        have := i.2
        omega
      · rw [List.any_eq_true] at ho
        obtain ⟨i, -, hi⟩ := ho
        rw [h i] at hi
        cases hi
    simp only [BinnedOps.transformInPlace, (c101_included hg hi).2 hin, hro.1, hro.2, BinnedOps.TransformInPlace, ho]
    rw [if_neg (by simp), if_neg (by simp), if_neg (by simp [hN]), if_pos trivial]
    simp only [h1]
    exact ⟨mem', h2, rfl⟩
  · obtain ⟨ps, m, mem', h1, h2⟩ := key ins hi hin hsz
    refine ⟨mem', ?_⟩
    simp only [BinnedOps.transformInPlace, (c101_included hg hi).2 hin, hro.1, hro.2, BinnedOps.TransformInPlace, ho]
    rw [if_neg (by simp), if_neg (by simp), if_neg (by simp), if_neg (by simp)]
    simp only [h1]
    exact ⟨mem', h2, rfl⟩

/-- In place with a dense operand: the hypotheses hold. -/
example : ∃ mem', BinnedOps.transformInPlace (N := 1) (fun x y => x + y 0) (c101Bins none)
    (fun _ => ⟨.dense ⟨[(1, 2)], [1], 0, false⟩ (fun a => a), false⟩) (fun a => 100 * (a + 1)) (.ok mem') :=
  C101_in_place_succeeds _ _ _ _ (c101_bins_good none (by simp)) (by
      intro c c' _ _ h
      simpa [c101Bins, View.addr, addrAux, labels] using h) (by decide) (by decide)
    (fun _ => ⟨by simp [View.WF, Sizes.WF, labels], by simp [labels, Dim.invalid]⟩) (fun _ p hp => hp) ⟨rfl, rfl⟩ (.inl (le_refl _))
    (fun i b c hb _ => by cases hb)

example : (c101Bins none).Disjoint := by
  intro c c' hc hc' k k' hk hk' h
  have h1 := hc 1 2 (by simp [c101Bins])
  have h2 := hc' 1 2 (by simp [c101Bins])
  simp only [c101Bins, Binned.count, Binned.bin, Binned.addr, View.addr, addrAux, labels] at hk hk' h ⊢
  simp only [List.map_cons, List.map_nil, List.mem_singleton, forall_eq]
  split at hk <;> split at hk' <;> simp_all <;> omega

/-! ### negations -/

/-- Three bins along `1` with one event each, starting at bin `k`, `n` of them. -/
def c101Slice (k n : Int) : Binned Int Unit :=
  ⟨⟨[(1, n)], [1], k, false⟩, fun j => (j, j + 1), ⟨5, ⟨[(5, 3)], [1], 0, false⟩, fun _ => 0, none⟩⟩

/-- **C101**, negation for operations in place with overlapping operands: `x['x', 1:3] += x['x', 0:2]` for binned `x` is not seen as
overlap, because the views of binned variables start at the buffer whatever the slice. With events 10, 20, 30 the last one can become
60 instead of 50. -/
theorem C101_wrong_in_place_overlap :
    (c101Slice 1 2).Good ∧ (c101Slice 1 2).view.Distinct ∧ (c101Slice 1 2).Disjoint ∧ (c101Slice 0 2).Good ∧
    ∃ mem', BinnedOps.transformInPlace (N := 1) (fun x y => x + y 0) (c101Slice 1 2) (fun _ => ⟨.binned (c101Slice 0 2), true⟩)
        (fun a => 10 * (a + 1)) (.ok mem') ∧
      mem' ((c101Slice 1 2).addr (fun _ => 1) 0) = 60 ∧
      (10 * ((c101Slice 1 2).addr (fun _ => 1) 0 + 1)) + (⟨.binned (c101Slice 0 2), true⟩ : Input Int Unit).event (fun a => 10 * (a + 1)) (fun _ => 1) 0 = 50 := by
  have hgood : ∀ k, 0 ≤ k → k ≤ 1 → (c101Slice k 2).Good := by
    intro k h0 h1
    refine ⟨by simp [c101Slice, View.WF, Sizes.WF, labels], by simp [c101Slice, labels, Dim.invalid],
      by simp [c101Slice, View.WF, Sizes.WF, labels], rfl, ?_, by simp [c101Slice]⟩
    intro c hc
    have := hc 1 2 (by simp [c101Slice])
    simp [c101Slice, Binned.bin, Binned.rows, View.addr, addrAux, Dims.volume]
    omega
  refine ⟨hgood 1 (by omega) (by omega), ?_, ?_, hgood 0 (by omega) (by omega), ?_⟩
  · intro c c' hc hc' h
    simpa [c101Slice, View.addr, addrAux, labels] using h
  · intro c c' hc hc' k k' hk hk' h
    simp [c101Slice, Binned.count, Binned.bin, Binned.addr, View.addr, addrAux, labels] at hk hk' h ⊢
    omega
  · obtain ⟨ps, m, hset, hz, l, hl, hv⟩ : ∃ ps m, BinnedOps.inPlaceSetup (c101Slice 1 2)
        (fun _ : Fin 1 => ⟨.binned (c101Slice 0 2), true⟩) = .ok ([(1, 2)], ps, some m) ∧ BinnedOps.hasStrideZero m = false ∧
        ∃ l, m.runBlock (seekFuel [(1, 2)]) (runFuel [(1, 2)] (ps 0)) 0 2 = some l ∧ l.map (fun v => (v 0, v 1)) = [(1, 0), (2, 1)] :=
      ⟨_, _, rfl, rfl, _, rfl, rfl⟩
    match l, hl, hv with
    | [], _, hv => cases hv
    | [_], _, hv => simp at hv
    | _ :: _ :: _ :: _, _, hv => simp at hv
    | [v, w], hl, hv =>
      simp only [List.map_cons, List.map_nil, List.cons.injEq, Prod.mk.injEq, and_true] at hv
      obtain ⟨⟨h1, h2⟩, h3, h4⟩ := hv
      refine ⟨runSteps (fun a => 10 * (a + 1)) ([v, w].map (BinnedOps.callInPlaceStep (fun x y => x + y 0) (c101Slice 1 2)
        (fun _ : Fin 1 => ⟨.binned (c101Slice 0 2), true⟩))), ?_, ?_, rfl⟩
      · unfold BinnedOps.transformInPlace
        rw [if_neg (by decide), if_neg (by decide)]
        unfold BinnedOps.TransformInPlace
        simp only
        rw [if_neg (by decide), if_neg (by decide), hset]
        refine ⟨_, ?_, rfl⟩
        unfold BinnedOps.transformInPlaceImpl
        rw [hz, if_neg (by decide)]
        exact ⟨[(0, 2)], [_], _, .whole (by decide), by simp [hl, Dims.volume], .single _, rfl⟩
      · have e : (c101Slice 1 2).addr (fun _ => 1) 0 = 2 := rfl
        rw [e]
        simp [runSteps, BinnedOps.callInPlaceStep, h1, h2, h3, h4, Input.read, c101Slice]

/-- One bin with two events; the buffer of the second has another dim of length 3. -/
def c101Flat : Binned Int Unit :=
  ⟨⟨[(1, 1)], [1], 0, false⟩, fun _ => (0, 2), ⟨5, ⟨[(5, 2)], [1], 0, false⟩, fun a => a, none⟩⟩
def c101Wide : Binned Int Unit :=
  ⟨⟨[(1, 1)], [1], 0, false⟩, fun _ => (0, 2), ⟨5, ⟨[(5, 2), (6, 3)], [3, 1], 0, false⟩, fun a => a, none⟩⟩

/-- **C101**, negation for buffers with different dims: there is no error, the additional dim of the events of the second operand is
ignored and only its elements 0 and 3 are read. -/
theorem C101_wrong_for_buffer_dims : ∃ r ps m,
    setup (fun _ => ()) (Fin.cons (.binned c101Flat) (Fin.cons (.binned c101Wide) Fin.elim0) : Fin 2 → BinnedOps.Operand Int Unit) =
      .ok (r, ps, some m) ∧ r.eventDims = [(5, 2)] ∧
    (m.runBlock 1 3 0 1).map (List.map (fun v => [v 0, v 1, v 2])) = some [[0, 0, 0], [1, 1, 3]] :=
  ⟨_, _, _, rfl, rfl, rfl⟩

/-- With the operands exchanged, every row of the flat buffer is read three times. -/
theorem C101_wrong_for_buffer_dims_exchanged : ∃ r ps m,
    setup (fun _ => ()) (Fin.cons (.binned c101Wide) (Fin.cons (.binned c101Flat) Fin.elim0) : Fin 2 → BinnedOps.Operand Int Unit) =
      .ok (r, ps, some m) ∧ r.eventDims = [(5, 2), (6, 3)] ∧
    (m.runBlock 1 7 0 1).map (List.map (fun v => [v 0, v 1, v 2])) =
      some [[0, 0, 0], [1, 1, 0], [2, 2, 0], [3, 3, 1], [4, 4, 1], [5, 5, 1]] :=
  ⟨_, _, _, rfl, rfl, rfl⟩

/-- A table of two events in 1 × 2 bins with dims `1`, `2`. -/
def c101Table : Binned Int Nat :=
  ⟨⟨[(1, 1), (2, 2)], [2, 1], 0, false⟩, fun j => (j, j + 1), ⟨5, ⟨[(5, 2)], [1], 0, false⟩, fun a => a, some [7, 8]⟩⟩

/-- **C101**, negation for tables of events: the operation works when the binned operand comes first, and fails when the dense operand,
which has the same dims in another order, comes first. -/
theorem C101_wrong_for_order :
    (∃ r ps m, setup (fun _ => 0) (Fin.cons (.binned c101Table) (Fin.cons (.dense ⟨[(2, 2), (1, 1)], [1, 1], 0, false⟩ (fun a => a))
      Fin.elim0) : Fin 2 → BinnedOps.Operand Int Nat) = .ok (r, ps, some m)) ∧
    setup (fun _ => 0) (Fin.cons (.dense ⟨[(2, 2), (1, 1)], [1, 1], 0, false⟩ (fun a => a)) (Fin.cons (.binned c101Table)
      Fin.elim0) : Fin 2 → BinnedOps.Operand Int Nat) = .error .runtime :=
  ⟨⟨_, _, _, rfl⟩, rfl⟩

/-- If the output refers to the same event at several positions of a loop, the loop is not run in parallel: the outcome does not depend on a
schedule. -/
theorem C101_no_race {V M : Type} {N : Nat} (op : V → (Fin N → V) → V) (out : BinnedOps.Binned V M) (ins : Fin N → BinnedOps.Input V M) (dims : Dims)
    (ps : Fin (N + 1) → BinnedIndex.Operand) (m : BinnedIndex (N + 1)) (mem mem₁ mem₂ : Int → V)
    (hz : ∃ p, (p ∈ m.inner ∨ m.scalar = false ∧ p ∈ m.outer) ∧ p.2 0 = 0)
    (h₁ : BinnedOps.transformInPlaceImpl op out ins dims ps m mem mem₁) (h₂ : BinnedOps.transformInPlaceImpl op out ins dims ps m mem mem₂) :
    mem₁ = mem₂ := by
  obtain ⟨p, hp, h0⟩ := hz
  have hs : BinnedOps.hasStrideZero m = true := by
    simp only [BinnedOps.hasStrideZero, Bool.or_eq_true, Bool.and_eq_true, List.any_eq_true, Bool.not_eq_true', beq_iff_eq]
    rcases hp with hp | ⟨hm, hp⟩
    · exact .inl ⟨p, hp, h0⟩
    · exact .inr ⟨hm, p, hp, h0⟩
  simp only [BinnedOps.transformInPlaceImpl, hs, if_true] at h₁ h₂
  obtain ⟨e, c, he, hc, rfl⟩ := h₁
  obtain ⟨e', c', he', hc', rfl⟩ := h₂
  rw [he] at he'
  cases he'
  rw [hc] at hc'
  cases hc'
  rfl

/-- A bin with one event, repeated along `1`. -/
def c101Repeated : Binned Int Unit :=
  ⟨⟨[(1, 2)], [0], 0, false⟩, fun j => (j, j + 1), ⟨5, ⟨[(5, 3)], [1], 0, false⟩, fun _ => 0, none⟩⟩

example : ∃ ps m mem₁, BinnedOps.inPlaceSetup c101Repeated (fun _ : Fin 1 => ⟨.binned (c101Slice 0 2), false⟩) = .ok ([(1, 2)], ps, some m) ∧
    (∃ p, (p ∈ m.inner ∨ m.scalar = false ∧ p ∈ m.outer) ∧ p.2 0 = 0) ∧
    BinnedOps.transformInPlaceImpl (fun x y => x + y 0) c101Repeated (fun _ : Fin 1 => ⟨.binned (c101Slice 0 2), false⟩) [(1, 2)] ps m (fun _ => 0) mem₁ ∧
    ∀ mem₂, BinnedOps.transformInPlaceImpl (fun x y => x + y 0) c101Repeated (fun _ : Fin 1 => ⟨.binned (c101Slice 0 2), false⟩) [(1, 2)] ps m
      (fun _ => 0) mem₂ → mem₁ = mem₂ := by
  obtain ⟨ps, m, hset, hz, e, l, he, hl⟩ : ∃ ps m, BinnedOps.inPlaceSetup c101Repeated
      (fun _ : Fin 1 => ⟨.binned (c101Slice 0 2), false⟩) = .ok ([(1, 2)], ps, some m) ∧
      ((m.outer[0]?).map (fun p => p.2 0) = some 0 ∧ m.scalar = false) ∧
      ∃ e l, m.setIndex (seekFuel [(1, 2)]) (Dims.volume [(1, 2)]) = some e ∧
        BinnedIndex.run (seekFuel [(1, 2)]) (runFuel [(1, 2)] (ps 0)) m e = some l :=
    ⟨_, _, rfl, ⟨rfl, rfl⟩, _, _, rfl, rfl⟩
  have hz' : ∃ p, (p ∈ m.inner ∨ m.scalar = false ∧ p ∈ m.outer) ∧ p.2 0 = 0 := by
    obtain ⟨h1, h2⟩ := hz
    obtain ⟨p, hp, h0⟩ := Option.map_eq_some_iff.1 h1
    exact ⟨p, .inr ⟨h2, List.mem_of_getElem? hp⟩, h0⟩
  have hs : BinnedOps.hasStrideZero m = true := by
    obtain ⟨h1, h2⟩ := hz
    obtain ⟨p, hp, h0⟩ := Option.map_eq_some_iff.1 h1
    simp only [BinnedOps.hasStrideZero, h2, Bool.or_eq_true, List.any_eq_true]
    exact .inr (by simp only [Bool.not_false, Bool.true_and, List.any_eq_true]; exact ⟨p, List.mem_of_getElem? hp, by simp [h0]⟩)
  refine ⟨ps, m, runSteps (fun _ => 0) (l.map (BinnedOps.callInPlaceStep (fun x y => x + y 0) c101Repeated
    (fun _ : Fin 1 => ⟨.binned (c101Slice 0 2), false⟩))), hset, hz', ?_, ?_⟩
  · unfold BinnedOps.transformInPlaceImpl
    rw [hs, if_pos rfl]
    exact ⟨e, l, he, hl, rfl⟩
  · intro mem₂ h₂
    refine C101_no_race _ _ _ _ _ _ _ _ _ hz' ?_ h₂
    unfold BinnedOps.transformInPlaceImpl
    rw [hs, if_pos rfl]
    exact ⟨e, l, he, hl, rfl⟩

end Scipp.Props
