import Verif.Lemmas.Binning4
import Mathlib.Data.List.FinRange
/-!
Properties C20-C22: mapping of events to output bins.
-/
namespace Scipp.Props
open Scipp Binning
variable {E : Type}

/-- **C20**: whatever the order in which the writes of the threads happen, the output buffer holds the contents of the output bins one after
the other, the sizes are those of the contents, and the ranges computed from the sizes give back the contents: exactly the events
assigned to the bin, input bin by input bin and in the order within the input bin. No element outside a vector or the output is accessed.

Partial: the order of the input bins is that of the nested lists, i.e., by decreasing extent of the rebinned dims. This is the
original order for one rebinned dim, and otherwise not in general, see `C20_order_of_input_bins`. The considered ranges must not decrease along
the rebinned dims, see `C20_unaligned_edges`. -/
theorem C20_binning_partial {n : Nat} (length : Nat) (spans : List (Rows (InputBin E) n))
    (hfit : ∀ s ∈ spans, ∀ b ∈ s.flat, b.Fits length) (hm : ∀ s ∈ spans, s.Mono InputBin.range) :
    ∃ m, singleStage length spans = .ok m ∧ m.sizes = (binContents length spans).map (fun c => (c.length : Int)) ∧
      ∀ order, order.Perm m.writes.flatten →
        ∃ buf, buffer m order = .ok buf ∧ buf = (binContents length spans).flatten.map some ∧
          readBins buf (binsFromSizes 0 m.sizes) = some (binContents length spans) := by
  obtain ⟨m, h1, h2, h3, h4⟩ := singleStage_ok length spans hfit hm
  refine ⟨m, h1, h2, ?_⟩
  intro order ho
  refine ⟨_, ?_, rfl, ?_⟩
  · rw [buffer, h3, Int.toNat_natCast, fill_numbered _ _ (ho.trans h4)]
  · rw [h2, readBins_ok]

/-- Two rows with the same sub-bin layout. -/
private def inputBin (events : List (Int × Nat)) : InputBin Nat := ⟨0, 2, events⟩

/-- **C20** (order with several rebinned dims is not the original one): input bins `(x, y)` with 3 bins along `x` and 2 along `y`, each holding one
event, the events numbered in row-major order. `x` is the longer dim and handled first. The output bin holds the events as
`0, 2, 4, 1, 3, 5`. -/
theorem C20_order_of_input_bins :
    let rows : Rows (InputBin Nat) 2 := [[inputBin [(0, 0)], inputBin [(0, 2)], inputBin [(0, 4)]],
      [inputBin [(0, 1)], inputBin [(0, 3)], inputBin [(0, 5)]]]
    ((singleStage 2 [rows]).map fun m => (m.sizes, (buffer m m.writes.flatten).toOption)) =
      .ok ([6, 0], some [some 0, some 2, some 4, some 1, some 3, some 5]) := by
  decide

/-- **C20** (2-D bin edges): with a 2-D coord only the order along its own dim is required to be sorted (`bin.cpp` 342-345). When the other dim is
rebinned too the considered ranges may decrease along it, and elements outside a vector are read. Here the input bins are those of
`x = 0` with edges `2, 3` and `x = 1` with edges `0, 1`, and the output edges are `0, 1, 2, 3`. -/
theorem C20_unaligned_edges :
    let rows : Rows (InputBin Nat) 1 := [⟨2, 1, [(0, 7)]⟩, ⟨0, 1, [(0, 8)]⟩]
    (singleStage 3 [rows]).map (fun m => m.sizes) = .error .ub := by
  decide

/-- **C21**: the mapping via chunks succeeds whenever the direct one does and writes the same rows to the same positions (as a multiset), for every
chunk size, number of bins and number of events. -/
theorem C21_chunkwise (chunksize : Int) (hc : 0 < chunksize) (bins : List Int) (es : List (Int × E))
    (h : ∀ ie ∈ es, ie.1 < bins.length) (hb : bins ≠ []) :
    ∃ ws ws', mapDirect bins es = .ok ws ∧ mapChunkwise chunksize bins es = .ok ws' ∧ ws'.Perm ws := by
  obtain ⟨ws, h1, h2⟩ := mapDirect_ok bins es h
  obtain ⟨ws', h3, h4⟩ := mapChunkwise_ok chunksize hc bins es h hb
  exact ⟨ws, ws', h1, h3, h4.trans h2.symm⟩

example := C21_chunkwise 2 (by decide) [0, 2, 3, 5] [(3, 'a'), (0, 'b'), (-1, 'c'), (2, 'd'), (0, 'e'), (1, 'f'), (2, 'g')] (by decide)
  (by decide)

theorem fill_perm (out : List (Option E)) (ws ws' : List (Int × E)) (hp : ws'.Perm ws) (hn : (ws.map (·.1)).Nodup)
    (hr : ∀ w ∈ ws, 0 ≤ w.1 ∧ w.1 < out.length) : fill out ws' = fill out ws := by
  obtain ⟨r, h1, h2, h3⟩ := fill_ok ws out hn hr
  obtain ⟨r', h1', h2', h3'⟩ := fill_ok ws' out ((hp.map (·.1)).nodup_iff.mpr hn) (fun w hw => hr w (hp.mem_iff.mp hw))
  rw [h1, h1']
  congr 1
  apply List.ext_getElem?
  intro n
  by_cases hex : ∃ e, ((n : Int), e) ∈ ws
  · obtain ⟨e, he⟩ := hex
    rw [(h3 n).1 e he, (h3' n).1 e (hp.mem_iff.mpr he)]
  · push Not at hex
    rw [(h3 n).2 hex, (h3' n).2 (fun e hc => hex e (hp.mem_iff.mp hc))]

/-- **C21** (output): consequently the output is the same, provided the bins do not overlap (as established in C20). -/
theorem C21_output (chunksize : Int) (hc : 0 < chunksize) (bins : List Int) (es : List (Int × E))
    (h : ∀ ie ∈ es, ie.1 < bins.length) (hb : bins ≠ []) (out : List (Option E))
    (hok : ∀ ws, mapDirect bins es = .ok ws → (ws.map (·.1)).Nodup ∧ ∀ w ∈ ws, 0 ≤ w.1 ∧ w.1 < out.length) :
    (mapChunkwise chunksize bins es).bind (fill out) = (mapDirect bins es).bind (fill out) := by
  obtain ⟨ws, ws', h1, h2, h3⟩ := C21_chunkwise chunksize hc bins es h hb
  obtain ⟨h4, h5⟩ := hok ws h1
  rw [h1, h2]
  exact fill_perm out ws ws' h3 h4 h5

example := C21_output 2 (by decide) [0, 2, 3, 5] [(3, 'a'), (0, 'b'), (-1, 'c'), (2, 'd'), (0, 'e'), (1, 'f'), (2, 'g')] (by decide)
  (by decide) (List.replicate 6 none) (by rintro ws ⟨⟩; decide)

/-- **C21** (choice): whichever mapping `element::bin` chooses. -/
theorem C21_choice (bins : List Int) (es : List (Int × E)) (h : ∀ ie ∈ es, ie.1 < bins.length) :
    ∃ ws ws', mapDirect bins es = .ok ws ∧ mapToBins bins es = .ok ws' ∧ ws'.Perm ws := by
  obtain ⟨ws, h1, h2⟩ := mapDirect_ok bins es h
  obtain ⟨ws', h3, h4⟩ := mapToBins_ok bins es h
  exact ⟨ws, ws', h1, h3, h4.trans h2.symm⟩

example := C21_choice [0, 2, 3, 5] [(3, 'a'), (0, 'b'), (-1, 'c'), (2, 'd'), (0, 'e'), (1, 'f'), (2, 'g')] (by decide)

/-! ### C22 -/

theorem Rows_flat_map {α β : Type} (f : α → β) : ∀ (n : Nat) (xs : Rows α n), (xs.map f).flat = xs.flat.map f
  | 0, _ => rfl
  | n + 1, xs => by
    have : ∀ l : List (Rows α n), List.flatMap Rows.flat (List.map (Rows.map f) l) = (List.flatMap Rows.flat l).map f := by
      intro l
      rw [List.flatMap_map, List.map_flatMap]
      apply List.flatMap_congr
      intro x _
      exact Rows_flat_map f n x
    exact this xs

theorem Rows_shape_map {α β : Type} (f : α → β) : ∀ (n : Nat) (shape : List Nat) (xs : Rows α n), xs.HasShape shape →
    (xs.map f).HasShape shape
  | 0, _, _, h => h
  | _ + 1, [], _, h => h
  | n + 1, k :: shape, xs, h => by
    obtain ⟨h1, h2⟩ := h
    have hl : ∀ l : List (Rows α n), (List.map (Rows.map f) l).length = l.length := fun l => List.length_map _
    refine ⟨(hl xs).trans h1, ?_⟩
    intro y hy
    obtain ⟨x, hx, rfl⟩ := List.mem_map.mp hy
    exact Rows_shape_map f n shape x (h2 x hx)

/-- `Rows.last` if all elements have the same range. -/
def lastOf (last : Int) : Nat → List Nat → Int
  | 0, _ => last
  | _ + 1, [] => 0
  | n + 1, k :: shape => if k = 0 then 0 else max 0 (lastOf last n shape)

theorem Rows_last_const {α : Type} (range : α → Int × Int) (last : Int) : ∀ (n : Nat) (shape : List Nat) (xs : Rows α n),
    xs.HasShape shape → (∀ x ∈ xs.flat, (range x).2 = last) → xs.last range = lastOf last n shape
  | 0, _, x, _, h => h x (List.mem_singleton.mpr rfl)
  | _ + 1, [], _, h, _ => h.elim
  | n + 1, k :: shape, xs, hs, h => by
    obtain ⟨h1, h2⟩ := hs
    have hx : ∀ x, List.Mem x xs → Rows.last range x = lastOf last n shape := by
      intro x hx
      exact Rows_last_const range last n shape x (h2 x hx) (fun y hy => h y (List.mem_flatMap.mpr ⟨x, hx, hy⟩))
    have hgo : ∀ (l : List (Rows α n)) (acc : Int), (∀ x ∈ l, Rows.last range x = lastOf last n shape) →
        l.foldl (fun m x => max m (Rows.last range x)) acc = if l.length = 0 then acc else max acc (lastOf last n shape) := by
      intro l
      induction l with
      | nil => intro acc _; rfl
      | cons x l ih =>
        intro acc hl
        rw [List.foldl_cons, ih _ (fun y hy => hl y (List.mem_cons_of_mem _ hy)), hl x (List.mem_cons_self ..)]
        simp only [List.length_cons]
        rw [if_neg (by omega : ¬ l.length + 1 = 0)]
        split
        · rfl
        · rw [max_assoc, max_self]
    change List.foldl (fun m x => max m (Rows.last range x)) 0 xs = _
    rw [hgo xs 0 hx]
    simp only [lastOf]
    rw [h1]

theorem Rows_mono_const {α : Type} (range : α → Int × Int) (r : Int × Int) : ∀ (n : Nat) (shape : List Nat) (xs : Rows α n),
    xs.HasShape shape → (∀ x ∈ xs.flat, range x = r) → xs.Mono range
  | 0, _, _, _, _ => trivial
  | _ + 1, [], _, h, _ => h.elim
  | n + 1, k :: shape, xs, hs, h => by
    obtain ⟨h1, h2⟩ := hs
    refine ⟨?_, ?_⟩
    · intro x hx
      exact Rows_mono_const range r n shape x (h2 x hx) (fun y hy => h y (List.mem_flatMap.mpr ⟨x, hx, hy⟩))
    · apply List.pairwise_of_forall_mem_list
      intro a ha b hb
      have ha' : ∀ y ∈ Rows.flat a, range y = r := fun y hy => h y (List.mem_flatMap.mpr ⟨a, ha, hy⟩)
      have hb' : ∀ y ∈ Rows.flat b, range y = r := fun y hy => h y (List.mem_flatMap.mpr ⟨b, hb, hy⟩)
      constructor
      · cases n with
        | zero =>
          change (range a).1 ≤ (range b).1
          rw [ha' a (List.mem_singleton.mpr rfl), hb' b (List.mem_singleton.mpr rfl)]
        | succ n => exact le_refl _
      · rw [Rows_last_const range r.2 n shape a (h2 a ha) (fun y hy => by rw [ha' y hy]),
          Rows_last_const range r.2 n shape b (h2 b hb) (fun y hy => by rw [hb' y hy])]

theorem range_mul {β : Type} (g : Nat → β) (b : Nat) : ∀ a : Nat,
    (List.range a).flatMap (fun c => (List.range b).map fun f => g (c * b + f)) = (List.range (a * b)).map g
  | 0 => by simp
  | a + 1 => by
    rw [List.range_succ, List.flatMap_append, range_mul g b a, Nat.succ_mul, List.range_add, List.map_append, List.map_map]
    simp [Function.comp_def]

theorem take_blocks {α β : Type} (N L : Nat) (hL : L ≤ N) (G : α → List β) : ∀ (xs : List α), (∀ x ∈ xs, (G x).length = N) →
    (List.range xs.length).flatMap (fun u => ((xs.flatMap G).drop (u * N)).take L) = xs.flatMap fun x => (G x).take L
  | [], _ => rfl
  | x :: xs, h => by
    have hx := h x (List.mem_cons_self ..)
    rw [List.length_cons, List.range_succ_eq_map, List.flatMap_cons, List.flatMap_map]
    conv_rhs => rw [List.flatMap_cons]
    refine congrArg₂ (· ++ ·) ?_ ?_
    · rw [Nat.zero_mul, List.drop_zero, List.flatMap_cons, List.take_append_of_le_length (by omega)]
    · rw [← take_blocks N L hL G xs (fun y hy => h y (List.mem_cons_of_mem _ hy))]
      apply List.flatMap_congr
      intro u _
      rw [Nat.succ_mul, Nat.add_comm, ← List.drop_drop, List.flatMap_cons, ← hx, List.drop_left]

theorem fdiv_fmod_iff (i : Int) (chunk c f : Nat) (hf : f < chunk) :
    (0 ≤ i.fdiv chunk ∧ 0 + i.fdiv chunk = (c : Int) ∧ (0 ≤ i.fmod chunk ∧ 0 + i.fmod chunk = (f : Int))) ↔
      (0 ≤ i ∧ 0 + i = ((c * chunk + f : Nat) : Int)) := by
  have hc : (0 : Int) < chunk := by omega
  rw [Int.fdiv_eq_ediv_of_nonneg _ (by omega), Int.fmod_eq_emod_of_nonneg _ (by omega)]
  have h1 := Int.mul_ediv_add_emod i chunk
  have h2 := Int.emod_lt_of_pos i hc
  have h3 := Int.emod_nonneg i (show (chunk : Int) ≠ 0 by omega)
  constructor
  · rintro ⟨h4, h5, h6, h7⟩
    rw [zero_add] at h5 h7 ⊢
    rw [h5, h7] at h1
    have : i = ((c * chunk + f : Nat) : Int) := by push_cast; rw [← h1]; ring
    exact ⟨by rw [this]; exact Int.natCast_nonneg _, this⟩
  · rintro ⟨_, h5⟩
    rw [zero_add] at h5
    subst h5
    have e1 : ((c * chunk + f : Nat) : Int) / (chunk : Int) = c := by
      rw [← Int.natCast_ediv]
      congr 1
      rw [Nat.mul_comm, Nat.mul_add_div (by omega), Nat.div_eq_of_lt hf, Nat.add_zero]
    have e2 : ((c * chunk + f : Nat) : Int) % (chunk : Int) = f := by
      rw [← Int.natCast_emod]
      congr 1
      rw [Nat.mul_comm, Nat.mul_add_mod, Nat.mod_eq_of_lt hf]
    rw [e1, e2]
    omega

theorem flatten_flatMap' {α β : Type} (l : List α) (f : α → List (List β)) : (l.flatMap f).flatten = l.flatMap fun x => (f x).flatten := by
  induction l with
  | nil => rfl
  | cons x l ih => rw [List.flatMap_cons, List.flatten_append, ih, List.flatMap_cons]

/-- Events assigned within coarse bins. -/
theorem assigned_fine (b : InputBin E) (h0 : b.offset = 0) (nC chunk c f : Nat) (hf : f < chunk) :
    ((InputBin.assigned (⟨b.offset, nC, b.events.map fun ie => (ie.1.fdiv chunk, (ie.1.fmod chunk, ie.2))⟩ : InputBin (Int × E)) c).filter
      fun ie => decide (0 ≤ ie.1 ∧ 0 + ie.1 = (f : Int))).map (·.2) = b.assigned ((c * chunk + f : Nat) : Int) := by
  simp only [InputBin.assigned, h0, List.filter_map, List.map_map, List.filter_filter]
  have : (b.events.filter fun a => (((fun ie : Int × E => decide (0 ≤ ie.1 ∧ 0 + ie.1 = (f : Int))) ∘ fun x : Int × (Int × E) => x.2) ∘
      fun ie : Int × E => (ie.1.fdiv chunk, (ie.1.fmod chunk, ie.2))) a &&
      ((fun ie : Int × (Int × E) => decide (0 ≤ ie.1 ∧ 0 + ie.1 = (c : Int))) ∘
        fun ie : Int × E => (ie.1.fdiv chunk, (ie.1.fmod chunk, ie.2))) a) =
      b.events.filter fun ie => decide (0 ≤ ie.1 ∧ 0 + ie.1 = ((c * chunk + f : Nat) : Int)) := by
    apply List.filter_congr
    intro ie _
    simp only [Function.comp_apply]
    rw [← Bool.decide_and]
    apply decide_eq_decide.mpr
    rw [← fdiv_fmod_iff ie.1 chunk c f hf]
    tauto
  simp only [Function.comp_def] at this ⊢
  rw [this]

/-- **C22**: binning in two stages gives the same sizes and the same output buffer as binning in one stage, for every number of output bins, every
chunk size and every order of the writes of the threads in any of the stages. -/
theorem C22_two_stage {n : Nat} (length chunk : Nat) (hchunk : 0 < chunk) (spans : List (Rows (InputBin E) n)) (shape : List Nat)
    (hshape : ∀ s ∈ spans, s.HasShape shape)
    (hall : ∀ s ∈ spans, ∀ b ∈ s.flat, b.offset = 0 ∧ b.nbin = length ∧ ∀ ie ∈ b.events, ie.1 < length)
    (order1 : Mapped (Int × E) → List (Int × (Int × E))) (ho1 : ∀ m, (order1 m).Perm m.writes.flatten) :
    ∃ m m2, singleStage length spans = .ok m ∧ twoStage length chunk spans order1 = .ok m2 ∧ m2.sizes = m.sizes ∧
      ∀ order order2, order.Perm m.writes.flatten → order2.Perm m2.writes.flatten →
        buffer m2 order2 = buffer m order ∧ buffer m order = .ok ((binContents length spans).flatten.map some) := by
  -- the single stage
  obtain ⟨m, h1, h2, h3, h4⟩ := singleStage_ok length spans
    (fun s hs b hb => ⟨by rw [(hall s hs b hb).1], by rw [(hall s hs b hb).2.1]; omega,
      by rw [(hall s hs b hb).1, (hall s hs b hb).2.1]; omega, by rw [(hall s hs b hb).2.1]; exact (hall s hs b hb).2.2⟩)
    (fun s hs => Rows_mono_const InputBin.range (0, (length : Int)) n shape s (hshape s hs) (fun b hb => by
      simp only [InputBin.range, (hall s hs b hb).1, (hall s hs b hb).2.1, zero_add]))
  -- the first stage
  let nC := length / chunk + 1
  let g : InputBin E → InputBin (Int × E) := fun b => ⟨b.offset, nC, b.events.map fun ie => (ie.1.fdiv chunk, (ie.1.fmod chunk, ie.2))⟩
  have hlen : length < nC * chunk := by
    have := Nat.lt_div_mul_add (a := length) hchunk
    simp only [nC]
    rw [Nat.succ_mul]; omega
  have hdiv : ∀ i : Int, i < length → i.fdiv chunk < (nC : Int) := by
    intro i hi
    rw [Int.fdiv_eq_ediv_of_nonneg _ (by omega)]
    refine Int.ediv_lt_of_lt_mul (by omega) ?_
    have : (length : Int) < (nC : Int) * chunk := by exact_mod_cast hlen
    omega
  obtain ⟨m1, e1, e2, e3, e4⟩ := singleStage_ok nC (spans.map fun s => s.map g) (by
    intro s hs b hb
    obtain ⟨s0, hs0, rfl⟩ := List.mem_map.mp hs
    rw [Rows_flat_map] at hb
    obtain ⟨b0, hb0, rfl⟩ := List.mem_map.mp hb
    obtain ⟨a1, a2, a3⟩ := hall s0 hs0 b0 hb0
    refine ⟨by simp only [g, a1]; omega, Int.natCast_nonneg _, by simp only [g, a1]; omega, ?_⟩
    intro ie hie
    simp only [g, List.mem_map] at hie
    obtain ⟨ie0, hie0, rfl⟩ := hie
    exact hdiv _ (a3 ie0 hie0))
    (by
    intro s hs
    obtain ⟨s0, hs0, rfl⟩ := List.mem_map.mp hs
    refine Rows_mono_const InputBin.range (0, (nC : Int)) n shape _ (Rows_shape_map g n shape s0 (hshape s0 hs0)) ?_
    intro b hb
    rw [Rows_flat_map] at hb
    obtain ⟨b0, hb0, rfl⟩ := List.mem_map.mp hb
    simp only [InputBin.range, g, (hall s0 hs0 b0 hb0).1, zero_add])
  have ebuf : buffer m1 (order1 m1) = .ok ((binContents nC (spans.map fun s => s.map g)).flatten.map some) := by
    rw [buffer, e3, Int.toNat_natCast, fill_numbered _ _ ((ho1 m1).trans e4)]
  have eread : readBins ((binContents nC (spans.map fun s => s.map g)).flatten.map some) (binsFromSizes 0 m1.sizes) =
      some (binContents nC (spans.map fun s => s.map g)) := by rw [e2, readBins_ok]
  -- the second stage
  let leaf : List (Int × E) → Rows (InputBin E) 0 := fun evs => (⟨0, chunk, evs⟩ : InputBin E)
  obtain ⟨m2, f1, f2, f3, f4⟩ := singleStage_ok (n := 0) chunk ((binContents nC (spans.map fun s => s.map g)).map leaf) (by
    intro s hs b hb
    obtain ⟨evs, hevs, rfl⟩ := List.mem_map.mp hs
    have hb' : b = (⟨0, chunk, evs⟩ : InputBin E) := List.mem_singleton.mp hb
    subst hb'
    refine ⟨le_refl _, by simp only; omega, by simp only; omega, ?_⟩
    intro ie hie
    simp only [binContents, List.mem_flatMap, List.mem_map] at hevs
    obtain ⟨s1, ⟨s0, hs0, rfl⟩, p, _, rfl⟩ := hevs
    simp only [binContent, List.mem_flatMap] at hie
    obtain ⟨b, hb, hie⟩ := hie
    rw [Rows_flat_map] at hb
    obtain ⟨b0, hb0, rfl⟩ := List.mem_map.mp hb
    simp only [InputBin.assigned, g, List.mem_map, List.mem_filter] at hie
    obtain ⟨w, ⟨⟨ie0, _, rfl⟩, _⟩, rfl⟩ := hie
    simp only
    rw [Int.fmod_eq_emod_of_nonneg _ (by omega)]
    exact Int.emod_lt_of_pos _ (by omega))
    (by intro s hs; trivial)
  have hcontent : binContents chunk ((binContents nC (spans.map fun s => s.map g)).map leaf) =
      spans.flatMap fun s => (List.range (nC * chunk)).map fun (p : Nat) => binContent s p := by
    simp only [binContents, List.flatMap_map, List.flatMap_assoc]
    apply List.flatMap_congr
    intro s hs
    rw [← range_mul (fun (p : Nat) => binContent s p) chunk nC]
    apply List.flatMap_congr
    intro c _
    apply List.map_congr_left
    intro f hf
    rw [List.mem_range] at hf
    change ([(⟨0, chunk, binContent (s.map g) c⟩ : InputBin E)]).flatMap (fun b => b.assigned f) = _
    rw [List.flatMap_cons, List.flatMap_nil, List.append_nil]
    simp only [binContent]
    simp only [InputBin.assigned]
    rw [filter_flatMap_eq, List.map_flatMap, Rows_flat_map, List.flatMap_map]
    apply List.flatMap_congr
    intro b hb
    exact assigned_fine b (hall s hs b hb).1 nC chunk c f hf
  have hempty : ∀ s ∈ spans, ∀ p : Nat, length ≤ p → binContent s (p : Int) = [] := by
    intro s hs p hp
    simp only [binContent]
    rw [List.flatMap_eq_nil_iff]
    intro b hb
    obtain ⟨a1, a2, a3⟩ := hall s hs b hb
    refine assigned_out b (by rw [a2]; exact a3) p (Or.inr ?_)
    rw [a1, a2]; omega
  have hflat : (binContents chunk ((binContents nC (spans.map fun s => s.map g)).map leaf)).flatten =
      (binContents length spans).flatten := by
    rw [hcontent]
    simp only [binContents]
    rw [flatten_flatMap', flatten_flatMap']
    apply List.flatMap_congr
    intro s hs
    obtain ⟨d, hd⟩ := Nat.exists_eq_add_of_le (Nat.le_of_lt hlen)
    rw [hd, List.range_add, List.map_append, List.flatten_append]
    have : (List.map (fun (p : Nat) => binContent s (p : Int)) (List.map (fun x => length + x) (List.range d))).flatten = [] := by
      rw [List.flatten_eq_nil_iff]
      intro l hl
      rw [List.map_map] at hl
      obtain ⟨x, _, rfl⟩ := List.mem_map.mp hl
      exact hempty s hs _ (Nat.le_add_right _ _)
    rw [this, List.append_nil]
  refine ⟨m, ⟨(List.range spans.length).flatMap fun u => (m2.sizes.drop (u * (nC * chunk))).take length, m2.total, m2.writes⟩, h1, ?_, ?_, ?_⟩
  · simp only [twoStage]
    change (do
      let m1 ← singleStage nC (spans.map fun s => Rows.map g s)
      let buf ← buffer m1 (order1 m1)
      match readBins buf (binsFromSizes 0 m1.sizes) with
      | none => .error .ub
      | some bins =>
        let m2 ← singleStage (n := 0) chunk (bins.map leaf)
        return (⟨(List.range spans.length).flatMap fun u => (m2.sizes.drop (u * (nC * chunk))).take length, m2.total, m2.writes⟩ : Mapped E)) = _
    rw [e1]
    simp only [bind, Except.bind]
    rw [ebuf]
    simp only
    rw [eread]
    simp only
    rw [f1]
    rfl
  · simp only
    rw [f2, hcontent, h2, List.map_flatMap]
    rw [take_blocks (nC * chunk) length (by omega) _ spans (by intro s _; simp)]
    simp only [binContents, List.map_flatMap]
    apply List.flatMap_congr
    intro s _
    rw [← List.map_take, ← List.map_take, List.take_range, Nat.min_eq_left (by omega)]
  · intro order order2 ho ho2
    have hb : buffer m order = .ok ((binContents length spans).flatten.map some) := by
      rw [buffer, h3, Int.toNat_natCast, fill_numbered _ _ (ho.trans h4)]
    refine ⟨?_, hb⟩
    rw [hb, buffer]
    simp only at ho2 ⊢
    rw [f3, Int.toNat_natCast, hflat]
    rw [hflat] at f4
    exact fill_numbered _ _ (ho2.trans f4)

example := C22_two_stage (E := Nat) (n := 1) 5 2 (by decide)
  [[⟨0, 5, [(4, 1), (1, 2), (-1, 3), (0, 4)]⟩, ⟨0, 5, [(4, 5), (3, 6), (1, 7)]⟩]] [2]
  (by intro s hs; rw [List.mem_singleton.mp hs]; exact ⟨rfl, fun _ _ => rfl⟩) (by decide) (fun m => m.writes.flatten)
  (fun _ => List.Perm.refl _)

instance (length : Nat) (b : InputBin E) : Decidable (b.Fits length) := by unfold InputBin.Fits; infer_instance

/-- A case for C20: two positions that are not rebinned, two input bins each, three output bins, one event dropped. -/
def sampleSpans : List (Rows (InputBin Nat) 1) :=
  [[⟨0, 2, [(0, 1), (1, 2), (-1, 3), (0, 4)]⟩, ⟨1, 2, [(0, 5), (1, 6)]⟩], [⟨0, 2, [(1, 7)]⟩, ⟨1, 2, [(1, 8)]⟩]]

example : (∀ s ∈ sampleSpans, ∀ b ∈ Rows.flat s, b.Fits 3) ∧ (∀ s ∈ sampleSpans, s.Mono InputBin.range) ∧
    binContents 3 sampleSpans = [[1, 4], [2, 5], [6], [], [7], [8]] := by
  refine ⟨by decide, ?_, by decide⟩
  intro s hs
  rcases List.mem_cons.mp hs with rfl | hs
  · exact ⟨fun _ _ => trivial, by decide⟩
  · rw [List.mem_singleton.mp hs]
    exact ⟨fun _ _ => trivial, by decide⟩

example :
    let spans : List (Rows (InputBin Nat) 1) :=
      [[⟨0, 2, [(0, 1), (1, 2), (-1, 3), (0, 4)]⟩, ⟨1, 2, [(0, 5), (1, 6)]⟩], [⟨0, 2, [(1, 7)]⟩, ⟨1, 2, [(1, 8)]⟩]]
    ((singleStage 3 spans).map fun m => (m.sizes, (buffer m m.writes.flatten.reverse).toOption)) =
      .ok ([2, 2, 1, 0, 1, 1], some ([1, 4, 2, 5, 6, 7, 8].map some)) := by
  decide

/-- A case for C21: bins of different sizes, chunks of two bins. -/
example : mapDirect [0, 2, 3, 5] [(3, 'a'), (0, 'b'), (-1, 'c'), (2, 'd'), (0, 'e'), (1, 'f'), (2, 'g')] =
      .ok [(5, 'a'), (0, 'b'), (3, 'd'), (1, 'e'), (2, 'f'), (4, 'g')] ∧
    mapChunkwise 2 [0, 2, 3, 5] [(3, 'a'), (0, 'b'), (-1, 'c'), (2, 'd'), (0, 'e'), (1, 'f'), (2, 'g')] =
      .ok [(0, 'b'), (1, 'e'), (2, 'f'), (5, 'a'), (3, 'd'), (4, 'g')] := by decide

/-- A case for C22: five output bins in chunks of two. -/
example :
    let spans : List (Rows (InputBin Nat) 1) := [[⟨0, 5, [(4, 1), (1, 2), (-1, 3), (0, 4)]⟩, ⟨0, 5, [(4, 5), (3, 6), (1, 7)]⟩]]
    ((twoStage 5 2 spans fun m => m.writes.flatten).map fun m => (m.sizes, (buffer m m.writes.flatten).toOption)) =
      .ok ([1, 2, 0, 1, 2], some ([4, 2, 7, 6, 1, 5].map some)) := by
  decide

end Scipp.Props
