import Verif.Lemmas.Bins2
/-!
C47: copying binned data. C48: concatenating bin contents.
-/
namespace Scipp.Props
open Scipp Scipp.Sizes Scipp.Bins
variable {V : Type}

private theorem bind_ok {α β : Type} (a : α) (f : α → Except Err β) : (Except.ok a >>= f) = f a := rfl

private theorem bind_ok_iff {α β : Type} {x : Except Err α} {f : α → Except Err β} {b : β} (h : (x >>= f) = .ok b) :
    ∃ a, x = .ok a ∧ f a = .ok b := by
  cases x with
  | error e => cases h
  | ok a => exact ⟨a, rfl, h⟩

/-! ### C47 -/

/-- **C47**: copying a binned variable gives every bin the same events, in the same order, with all their coords and masks; the bins
of the copy follow each other without gap or overlap and fill the new buffer. The input may be a slice, its bins may be out of order,
overlap, or leave rows of the buffer unused. Missing for the full claim: buffers with a NaN in a coord or mask that does not depend
on the bin dim, see `C47_wrong_for_nan`. -/
theorem C47_copy_partial (eqv : V → V → Bool) (heq : ∀ a b, eqv a b = true → a = b) (init : Nat → V) (x : Binned V) (hx : x.Ok)
    (hnan : x.buffer.NoNaN eqv) :
    ∃ out, Bins.copy eqv init x = .ok out ∧ out.indices.dims = x.indices.dims ∧ out.Ok ∧
      (∀ c, InDims x.indices.dims c → out.bin c = x.bin c) ∧
      Contiguous 0 out.buffer.data.length (valuesOf out.indices) := by
  have hsz := binSizes_ok hx.indices
  have hl := layout_laidOut hsz (fun c hc => by have := hx.ranges c hc; simp only [binSizes]; omega)
  have hlen : (sizeFromEnds ((layout (valuesOf (binSizes x.indices))).map Prod.snd)) =
      ((emptyLike init x.buffer (binSizes x.indices)).buffer.data.length : Int) := by
    simp only [emptyLike, resize_data_length]
    exact (Int.toNat_of_nonneg hl.nonneg).symm
  rw [hlen] at hl
  obtain ⟨pairs, out, h1, h2, h3, h4, h5, _, _⟩ := copyPart eqv heq hx (dst := (emptyLike init x.buffer (binSizes x.indices)).buffer)
    (resize_ok init _ hx.buffer _) (resize_matches eqv init _ _ (matches_self eqv _ hnan) _) hsz hl
    (ofValues (binSizes x.indices).dims (layout (valuesOf (binSizes x.indices)))) rfl
    (fun c hc => ⟨le_refl _, le_refl _, hl.size c hc⟩) (fun p hp => hp)
  have hcopy : Bins.copy eqv init x = .ok ⟨ofValues (binSizes x.indices).dims (layout (valuesOf (binSizes x.indices))), out⟩ := by
    unfold Bins.copy copyInto
    simp only [emptyLike] at h2 ⊢
    rw [h1]
    show copySlices eqv x.buffer (Table.resize init x.buffer _) pairs >>= _ = _
    rw [h2]
    rfl
  refine ⟨_, hcopy, rfl, ⟨hl.ok, h3, fun c hc => ?_⟩, fun c hc => ?_, ?_⟩
  · simp only [h4]; exact hl.range c hc
  · obtain ⟨p1, p2⟩ := position_bounds hc
    have hlt : (position x.indices.dims c).toNat < (Dims.volume (binSizes x.indices).dims).toNat := by
      show _ < (Dims.volume x.indices.dims).toNat; omega
    have := h5 _ hlt
    rw [show (binSizes x.indices).dims = x.indices.dims from rfl, val_coordsOf hx.indices (fun p hp => hp) hx.indices.wf hc] at this
    rw [val_coordsOf (a := ofValues x.indices.dims (layout (valuesOf (binSizes x.indices)))) (dims := x.indices.dims) hl.ok
      (fun p hp => hp) hx.indices.wf hc] at this
    exact this
  · rw [h4]; exact hl.contiguous

/-- A buffer whose coord not depending on the bin dim contains NaN cannot be copied: the coord has been copied when creating the
new buffer, and is then required to be equal. Elements are `none` for NaN. -/
theorem C47_wrong_for_nan : ∃ (x : Binned (Option Int)), x.Ok ∧
    ((Bins.copy (fun a b => a == b && a.isSome) (fun _ => none) x).map (fun _ => ())) = .error .variable := by
  refine ⟨⟨⟨[], fun _ => (0, 1)⟩, ⟨[some 7], [(3, .fixed none)]⟩⟩, ⟨⟨by simp [WF], by simp, fun _ _ _ => rfl⟩, ⟨by simp, ?_⟩, ?_⟩, by decide⟩
  · intro k rows h; simp at h
  · intro c _; simp

theorem copyRows_sizes (src : List V) : ∀ (pairs : List ((Int × Int) × (Int × Int))) (dst out : List V),
    copyRows src dst pairs = .ok out → ∀ q ∈ pairs, q.1.2 - q.1.1 = q.2.2 - q.2.1
  | [], _, _, _, q, hq => by simp at hq
  | (s, d) :: rest, dst, out, h, q, hq => by
    unfold copyRows at h
    split at h
    · cases h
    · rename_i h1
      split at h
      · cases h
      · rcases List.mem_cons.1 hq with rfl | hq
        · exact not_not.1 h1
        · exact copyRows_sizes src rest _ _ h q hq

/-- **C47** (copying into existing bins): if this succeeds all bins have the same size as their source; the target keeps its bins.
A source with other sizes is rejected. -/
theorem C47_copy_into_sizes (eqv : V → V → Bool) (src dst out : Binned V) (hs : src.indices.Ok) (hd : dst.indices.Ok)
    (h : copyInto eqv src dst = .ok out) :
    out.indices = dst.indices ∧ ∀ c, InDims dst.indices.dims c →
      (src.indices.val c).2 - (src.indices.val c).1 = (dst.indices.val c).2 - (dst.indices.val c).1 := by
  unfold copyInto at h
  simp only [bind, Except.bind] at h
  split at h
  · cases h
  · rename_i pairs hp
    split at h
    · cases h
    · rename_i buf hb
      simp only [pure, Except.pure, Except.ok.injEq] at h
      subst h
      refine ⟨rfl, fun c hc => ?_⟩
      unfold copySlices at hb
      simp only [bind, Except.bind] at hb
      split at hb
      · cases hb
      · rename_i rows hrows
        have hsz := copyRows_sizes _ _ _ _ hrows
        unfold rangePairs at hp
        split at hp
        · rename_i hinc
          injection hp with hp
          subst hp
          obtain ⟨b1, b2⟩ := position_bounds hc
          have hsub := (includes_iff hd.wf.1 hs.wf.1).1 hinc
          have := hsz _ (List.mem_map.2 ⟨(position dst.indices.dims c).toNat, List.mem_range.2 (by omega), rfl⟩)
          rw [val_coordsOf hs hsub hd.wf hc, val_coordsOf hd (fun _ h => h) hd.wf hc] at this
          exact this
        · cases hp

example : (copyInto (· == ·) (⟨⟨[(2, 1)], fun _ => (0, 1)⟩, ⟨[10, 11], []⟩⟩ : Binned Int) ⟨⟨[(2, 1)], fun _ => (0, 2)⟩, ⟨[5, 6], []⟩⟩).map
      (fun r => r.buffer.data) = .error .binned ∧
    (copyInto (· == ·) (⟨⟨[(2, 1)], fun _ => (0, 2)⟩, ⟨[10, 11], []⟩⟩ : Binned Int) ⟨⟨[(2, 1)], fun _ => (1, 3)⟩, ⟨[5, 6, 7], []⟩⟩).map
      (fun r => r.buffer.data) = .ok [5, 10, 11] := ⟨rfl, rfl⟩

/-- **C47** (output of elementwise operations): `contiguous_indices` keeps the sizes of the bins and makes them contiguous. -/
theorem C47_contiguous_indices (l : List (Int × Int)) (h : ∀ r ∈ l, r.1 ≤ r.2) (b : Int) :
    (contiguousLoop b l).map (fun r => r.2 - r.1) = l.map (fun r => r.2 - r.1) ∧
    Contiguous b (((contiguousLoop b l).map Prod.snd).getLast?.getD b) (contiguousLoop b l) := by
  induction l generalizing b with
  | nil => exact ⟨rfl, rfl⟩
  | cons r l ih =>
    obtain ⟨h1, h2⟩ := ih (fun q hq => h q (by simp [hq])) (r.2 + (b - r.1))
    have := h r (by simp)
    refine ⟨?_, rfl, by simp only; omega, ?_⟩
    · simp only [contiguousLoop, List.map_cons, h1, List.cons.injEq, and_true]; omega
    · simp only [contiguousLoop, List.map_cons, List.getLast?_cons, Option.getD_some]
      exact h2

/-- Two bins of a buffer of six rows, out of order and overlapping, with a coord, for the examples. -/
def sampleBinned : Binned Int :=
  ⟨⟨[(2, 2)], fun c => if c 2 = 0 then (3, 6) else (2, 4)⟩, ⟨[10, 11, 12, 13, 14, 15], [(3, .along [0, 1, 2, 3, 4, 5]), (4, .fixed 9)]⟩⟩

theorem sampleBinned_ok : sampleBinned.Ok := by
  refine ⟨⟨by simp [sampleBinned, WF, labels], by simp [sampleBinned, labels, Dim.invalid], fun c c' h => ?_⟩,
    ⟨by simp [sampleBinned], fun k rows h => ?_⟩, fun c _ => ?_⟩
  · simp only [sampleBinned]; rw [h 2 (by simp [sampleBinned, labels])]
  · simp only [sampleBinned, List.mem_cons, Prod.mk.injEq, Col.along.injEq, reduceCtorEq, and_false, List.not_mem_nil, or_false] at h
    rw [h.2]; rfl
  · simp only [sampleBinned]; split <;> decide

/-- The rows of the bin at index `i` along dim 2: the data and the coord 3. -/
def showBin (x : Binned Int) (i : Int) : List (Option Int × Option Int) := (x.bin (fun _ => i)).map (fun e => (e.data, e.field 3))

example : ((Bins.copy (· == ·) (fun _ => 77) sampleBinned).map
    (fun r => (valuesOf r.indices, r.buffer.data, showBin r 0, showBin r 1))).toOption =
    some ([(0, 3), (3, 5)], [13, 14, 15, 12, 13], [(some 13, some 3), (some 14, some 4), (some 15, some 5)],
      [(some 12, some 2), (some 13, some 3)]) := rfl

/-! ### C48 -/

/-- **C48**: concatenating two binned variables bin by bin gives in each bin the events of the first followed by those of the second,
with all their coords and masks. The dims are merged; the buffers must have the same columns. -/
theorem C48_combine (eqv : V → V → Bool) (heq : ∀ a b, eqv a b = true → a = b) (init : Nat → V) (a b : Binned V)
    (ha : a.Ok) (hb : b.Ok) (hnan : a.buffer.NoNaN eqv) (hm : b.buffer.Matches eqv a.buffer)
    (hc : Compatible a.indices.dims b.indices.dims) :
    ∃ out, combine eqv init a b = .ok out ∧ out.Ok ∧
      (∀ p, p ∈ out.indices.dims ↔ p ∈ a.indices.dims ∨ p ∈ b.indices.dims) ∧
      (∀ c, InDims out.indices.dims c → out.bin c = a.bin c ++ b.bin c) ∧
      Contiguous 0 out.buffer.data.length (valuesOf out.indices) := by
  have hsa := binSizes_ok ha.indices
  have hsb := binSizes_ok hb.indices
  obtain ⟨sizes, hz⟩ := (zip_exists (f := fun x y : Int => x + y) hsa hsb).2 hc
  obtain ⟨z1, z2, z3⟩ := zip_ok hsa hsb hz
  have hina : ∀ c, InDims sizes.dims c → InDims a.indices.dims c := fun c h d n hd => h d n ((z2 _).2 (.inl hd))
  have hinb : ∀ c, InDims sizes.dims c → InDims b.indices.dims c := fun c h d n hd => h d n ((z2 _).2 (.inr hd))
  have hs0 : ∀ c, InDims sizes.dims c → 0 ≤ (binSizes a.indices).val c ∧ 0 ≤ (binSizes b.indices).val c := by
    intro c h
    have h1 := ha.ranges c (hina c h)
    have h2 := hb.ranges c (hinb c h)
    simp only [binSizes]; omega
  have hsz : ∀ c, sizes.val c = (binSizes a.indices).val c + (binSizes b.indices).val c := by intro c; rw [z3]
  have hl := layout_laidOut z1 (fun c h => by rw [hsz]; have := hs0 c h; omega)
  -- names for the intermediate results
  generalize hind : ofValues sizes.dims (layout (valuesOf sizes)) = ind at hl
  generalize hN : (sizeFromEnds ((layout (valuesOf sizes)).map Prod.snd)) = N at hl
  have hlen : N = ((a.buffer.resize init N.toNat).data.length : Int) := by
    rw [resize_data_length]; exact (Int.toNat_of_nonneg hl.nonneg).symm
  have hl0 := hl
  rw [hlen] at hl
  have hsum : ∀ c, InDims sizes.dims c → (ind.val c).2 - (ind.val c).1 = (binSizes a.indices).val c + (binSizes b.indices).val c :=
    fun c h => by rw [hl.size c h, hsz]
  obtain ⟨pairs0, buf0, f1, f2, f3, f4, f5, f6, f7⟩ := copyPart eqv heq ha (dst := a.buffer.resize init N.toNat)
    (resize_ok init _ ha.buffer _) (resize_matches eqv init _ _ (matches_self eqv _ hnan) _) z1 hl
    ⟨ind.dims, fun c => ((ind.val c).1, (ind.val c).2 - (binSizes b.indices).val c)⟩ rfl
    (fun c h => by
      have h1 := hs0 c h
      have h2 := hsum c h
      refine ⟨le_refl _, by simp only; omega, ?_⟩
      simp only
      simp only [binSizes] at h2 ⊢
      omega)
    (fun p hp => (z2 p).2 (.inl hp))
  have hl1 : LaidOut sizes ind buf0.data.length := by rw [f4]; exact hl
  obtain ⟨pairs1, buf1, g1, g2, g3, g4, g5, g6, _⟩ := copyPart eqv heq hb (dst := buf0) f3
    (f7 _ (resize_matches eqv init _ _ hm _)) z1 hl1
    ⟨ind.dims, fun c => ((ind.val c).1 + (binSizes a.indices).val c, (ind.val c).2)⟩ rfl
    (fun c h => by
      have h1 := hs0 c h
      have h2 := hsum c h
      refine ⟨by simp only; omega, le_refl _, ?_⟩
      simp only
      simp only [binSizes] at h2 ⊢
      omega)
    (fun p hp => (z2 p).2 (.inr hp))
  have hres : combine eqv init a b = .ok ⟨ind, buf1⟩ := by
    unfold combine
    simp only [hz, bind_ok, hN, hind]
    rw [f1]
    simp only [bind_ok]
    rw [f2]
    simp only [bind_ok]
    rw [g1]
    simp only [bind_ok]
    rw [g2]
    rfl
  have hNl : (buf1.data.length : Int) = N := by rw [g4, f4]; exact hlen.symm
  refine ⟨⟨ind, buf1⟩, hres, ⟨hl.ok, g3, fun c h => ?_⟩, fun p => ?_, fun c h => ?_, ?_⟩
  · rw [hl.dims] at h; rw [hNl]; exact hl0.range c h
  · rw [show (⟨ind, buf1⟩ : Binned V).indices.dims = sizes.dims from hl.dims]; exact z2 p
  · rw [show (⟨ind, buf1⟩ : Binned V).indices.dims = sizes.dims from hl.dims] at h
    obtain ⟨p1, p2⟩ := position_bounds h
    have hk : (position sizes.dims c).toNat < (Dims.volume sizes.dims).toNat := by omega
    have hcc := coordsOf_inDims z1.wf (k := ((position sizes.dims c).toNat : Int)) (by omega) (by omega)
    have eind := val_coordsOf (a := ind) hl.ok (fun p hp => by rwa [hl.dims] at hp) z1.wf h
    have ea := val_coordsOf (dims := sizes.dims) ha.indices (fun p hp => (z2 p).2 (.inl hp)) z1.wf h
    have eb := val_coordsOf (dims := sizes.dims) hb.indices (fun p hp => (z2 p).2 (.inr hp)) z1.wf h
    have h1 := f5 _ hk
    have h2 := g5 _ hk
    simp only [binSizes, eind, ea, eb] at h1 h2
    have hsum' := hsum c h
    have hs0' := hs0 c h
    simp only [binSizes] at hsum' hs0'
    show buf1.events (ind.val c) = a.buffer.events (a.indices.val c) ++ b.buffer.events (b.indices.val c)
    rw [← h1, ← h2]
    have hmid : (ind.val c).2 - ((b.indices.val c).2 - (b.indices.val c).1) = (ind.val c).1 + ((a.indices.val c).2 - (a.indices.val c).1) := by
      omega
    rw [hmid]
    rw [show buf1.events (ind.val c) = buf1.events ((ind.val c).1, (ind.val c).2) from rfl,
      events_append buf1 (b := (ind.val c).1) (m := (ind.val c).1 + ((a.indices.val c).2 - (a.indices.val c).1)) (by omega) (by omega)]
    refine congrArg₂ _ (events_eq rfl (fun m hm => ?_)) rfl
    simp only at hm ⊢
    -- rows of the first part are not touched by the second copy
    refine g6 _ (fun k' hk' hcon => ?_)
    have hr := hl0.range c h
    have hin' := coordsOf_inDims z1.wf (k := (k' : Int)) (by omega) (by omega)
    have hr' := hl0.range _ hin'
    have hs' := hs0 _ hin'
    simp only at hcon
    rw [Int.toNat_of_nonneg (by omega)] at hcon
    rcases lt_trichotomy k' (position sizes.dims c).toNat with hlt | heq' | hgt
    · have := hl0.ordered k' _ hlt hk
      rw [eind] at this
      omega
    · subst heq'
      simp only [binSizes, eind, ea] at hcon
      omega
    · have := hl0.ordered _ k' hgt hk'
      rw [eind] at this
      omega
  · rw [show ((⟨ind, buf1⟩ : Binned V).buffer.data.length : Int) = N from hNl]; exact hl0.contiguous

example : ((combine (· == ·) (fun _ => 77) sampleBinned
      ⟨⟨[(2, 2)], fun c => (c 2, 1)⟩, ⟨[50], [(4, .fixed 9), (3, .along [60])]⟩⟩).map
    (fun r => (showBin r 0, showBin r 1))).toOption =
    some ([(some 13, some 3), (some 14, some 4), (some 15, some 5), (some 50, some 60)], [(some 12, some 2), (some 13, some 3)]) := rfl

/-- Storage of a variable that is no slice, neither transposed nor broadcast. -/
structure BinnedVar.Plain (x : BinnedVar V) : Prop where
  strides : x.view.strides = rowMajor (shape x.view.dims)
  offset : x.view.offset = 0
  memory : x.memory.length = (Dims.volume x.view.dims).toNat

/-- Addresses of a plain variable are the positions. -/
theorem plain_addr {x : BinnedVar V} (h : BinnedVar.Plain x) (c : Dim → Int) : x.view.addr c = position x.view.dims c := by
  rw [position_eq, ← h.strides]
  simp [View.addr, h.offset]

/-- **C48** (`append`, in place): if the target is stored in the order of its dims and the other operand has no additional dims, every
bin gets the events of the other operand's bin appended. Missing for the full claim: transposed targets, see
`C48_append_wrong_for_transposed`. -/
theorem C48_append_partial (eqv : V → V → Bool) (heq : ∀ a b, eqv a b = true → a = b) (init : Nat → V) (a : BinnedVar V) (b : Binned V)
    (ha : a.content.Ok) (hb : b.Ok) (hplain : BinnedVar.Plain a) (hnan : a.buffer.NoNaN eqv) (hm : b.buffer.Matches eqv a.buffer)
    (hsub : ∀ p ∈ b.indices.dims, p ∈ a.view.dims) :
    ∃ out, Bins.append eqv init a b = .ok out ∧ out.view = a.view ∧
      ∀ c, InDims a.view.dims c → out.content.bin c = a.content.bin c ++ b.bin c := by
  have hcomp : Compatible a.content.indices.dims b.indices.dims := by
    intro d x y hx hy
    exact compatible_of_subset ha.indices.wf (fun q hq => hq) d x y hx (hsub _ hy)
  obtain ⟨r, h1, h2, h3, h4, h5⟩ := C48_combine eqv heq init a.content b ha hb hnan hm hcomp
  -- the dims are those of the target, in the same order
  have hdims : r.indices.dims = a.view.dims := by
    have hmerge : Dims.merge a.content.indices.dims b.indices.dims = .ok a.content.indices.dims :=
      merge_of_includes ha.indices.wf hb.indices.wf ha.indices.valid hsub
    have hz : Arr.zip (fun x y : Int => x + y) (binSizes a.content.indices) (binSizes b.indices) =
        .ok ⟨a.view.dims, fun c => (binSizes a.content.indices).val c + (binSizes b.indices).val c⟩ := by
      unfold Arr.zip
      rw [show Dims.merge (binSizes a.content.indices).dims (binSizes b.indices).dims = .ok a.content.indices.dims from hmerge]
      rfl
    unfold combine at h1
    simp only [hz, bind_ok] at h1
    obtain ⟨p0, hp0, h1⟩ := bind_ok_iff h1
    obtain ⟨b0, hb0, h1⟩ := bind_ok_iff h1
    obtain ⟨p1, hp1, h1⟩ := bind_ok_iff h1
    obtain ⟨b1, hb1, h1⟩ := bind_ok_iff h1
    cases h1
    rfl
  have hlen : (valuesOf r.indices).length = a.memory.length := by rw [valuesOf_length, hdims, hplain.memory]
  refine ⟨⟨a.view, valuesOf r.indices, r.buffer⟩, ?_, rfl, fun c hc => ?_⟩
  · unfold Bins.append
    simp only [h1]
    show (if _ then _ else _) = _
    rw [if_neg (by simp [hlen])]
    rfl
  · rw [← h4 c (by rw [hdims]; exact hc)]
    show r.buffer.events _ = r.buffer.events _
    refine congrArg _ ?_
    show (valuesOf r.indices).getD (a.view.addr c).toNat (0, 0) = r.indices.val c
    rw [plain_addr hplain, List.getD_eq_getElem?_getD, ← hdims, valuesOf_get h2.indices (by rw [hdims]; exact hc)]
    rfl

/-- Appending to a transposed variable permutes its bins: the new bins are stored in the order of the dims, but the strides of the
transposed variable are kept. Bins `(i, j)` of a 2 x 2 variable, stored transposed, with the single event `10 * i + j` each; nothing
is appended. Afterwards bin `(0, 1)` contains the event 10 instead of 1. -/
theorem C48_append_wrong_for_transposed : ∃ (a : BinnedVar Int) (b : Binned Int), a.content.Ok ∧ b.Ok ∧ a.view.WF ∧
    a.buffer.Matches (· == ·) b.buffer ∧
    b.indices.dims = [] ∧ b.bin (fun _ => 0) = [] ∧
    (a.content.bin (fun d => if d = 2 then 0 else 1)).map (·.data) = [some 1] ∧
    ((Bins.append (· == ·) (fun _ => 0) a b).map (fun r => (r.content.bin (fun d => if d = 2 then 0 else 1)).map (·.data))) =
      .ok [some 10] := by
  refine ⟨⟨⟨[(2, 2), (3, 2)], [1, 2], 0, false⟩, [(0, 1), (1, 2), (2, 3), (3, 4)], ⟨[0, 10, 1, 11], []⟩⟩,
    ⟨⟨[], fun _ => (0, 0)⟩, ⟨[], []⟩⟩, ?_, ?_, ?_, ?_, rfl, rfl, by decide, by decide⟩
  · refine ⟨⟨by simp [BinnedVar.content, WF, labels], by simp [BinnedVar.content, labels, Dim.invalid], fun c c' h => ?_⟩,
      ⟨by simp [BinnedVar.content], by simp [BinnedVar.content]⟩, fun c hc => ?_⟩
    · have h2 := h 2 (by simp [BinnedVar.content, labels])
      have h3 := h 3 (by simp [BinnedVar.content, labels])
      simp [BinnedVar.content, View.addr, addrAux, h2, h3]
    · have h2 := hc 2 2 (by simp [BinnedVar.content])
      have h3 := hc 3 2 (by simp [BinnedVar.content])
      simp only [BinnedVar.content, View.addr, addrAux]
      have e2 : c 2 = 0 ∨ c 2 = 1 := by omega
      have e3 : c 3 = 0 ∨ c 3 = 1 := by omega
      rcases e2 with e2 | e2 <;> rcases e3 with e3 | e3 <;> rw [e2, e3] <;> decide
  · refine ⟨⟨by simp [WF], by simp, fun _ _ _ => rfl⟩, ⟨by simp, by simp⟩, fun c _ => by simp⟩
  · exact ⟨by simp [WF, labels], rfl, by simp⟩
  · exact ⟨fun _ => rfl, fun _ _ h => by simp [lookupEntry] at h, fun _ _ h => by simp [lookupEntry] at h⟩

/-- Another binned variable with the same columns, in another order. -/
private def sampleOther : Binned Int := ⟨⟨[(2, 2)], fun c => if c 2 = 0 then (0, 1) else (1, 1)⟩, ⟨[50], [(4, .fixed 9), (3, .along [60])]⟩⟩

private theorem sampleOther_ok : sampleOther.Ok := by
  refine ⟨⟨by simp [sampleOther, WF, labels], by simp [sampleOther, labels, Dim.invalid], fun c c' h => ?_⟩,
    ⟨by simp [sampleOther], fun k rows h => ?_⟩, fun c _ => ?_⟩
  · simp only [sampleOther]; rw [h 2 (by simp [sampleOther, labels])]
  · simp only [sampleOther, List.mem_cons, Prod.mk.injEq, Col.along.injEq, reduceCtorEq, and_false, List.not_mem_nil, or_false, false_or] at h
    rw [h.2]; rfl
  · simp only [sampleOther]; split <;> decide

private theorem sampleBinned_noNaN : sampleBinned.buffer.NoNaN (· == ·) := fun _ _ _ => by simp

private theorem sampleOther_matches : sampleOther.buffer.Matches (· == ·) sampleBinned.buffer := by
  refine ⟨fun k => ?_, fun k rows h => ?_, fun k v h => ?_⟩
  · simp only [sampleOther, sampleBinned, lookupEntry]; split <;> split <;> rfl
  · simp only [sampleOther, lookupEntry] at h
    split at h
    · cases h
    · split at h
      · rename_i e; exact ⟨[0, 1, 2, 3, 4, 5], by simp [sampleBinned, lookupEntry, ← e]⟩
      · cases h
  · simp only [sampleOther, lookupEntry] at h
    split at h
    · rename_i e; cases h; exact ⟨9, by simp [sampleBinned, lookupEntry, ← e], rfl⟩
    · split at h <;> cases h

example := C47_copy_partial (· == ·) (by simp) (fun _ => 77) sampleBinned sampleBinned_ok sampleBinned_noNaN
example := C47_copy_into_sizes (· == ·) (⟨⟨[(2, 1)], fun _ => (0, 2)⟩, ⟨[10, 11], []⟩⟩ : Binned Int)
  ⟨⟨[(2, 1)], fun _ => (1, 3)⟩, ⟨[5, 6, 7], []⟩⟩ ⟨⟨[(2, 1)], fun _ => (1, 3)⟩, ⟨[5, 10, 11], []⟩⟩
  ⟨by simp [WF, labels], by simp [labels, Dim.invalid], fun _ _ _ => rfl⟩
  ⟨by simp [WF, labels], by simp [labels, Dim.invalid], fun _ _ _ => rfl⟩ rfl
example := C47_contiguous_indices [(3, 6), (2, 4), (7, 7)] (by decide) 0
example := C48_combine (· == ·) (by simp) (fun _ => 77) sampleBinned sampleOther sampleBinned_ok sampleOther_ok sampleBinned_noNaN
  sampleOther_matches (by simp [Compatible, sampleBinned, sampleOther]; omega)

/-- The sample as it is stored: the ranges in a list. -/
private def sampleStored : BinnedVar Int := ⟨⟨[(2, 2)], [1], 0, false⟩, [(3, 6), (2, 4)], sampleBinned.buffer⟩

private theorem sampleStored_ok : sampleStored.content.Ok := by
  refine ⟨⟨by simp [BinnedVar.content, sampleStored, WF, labels], by simp [BinnedVar.content, sampleStored, labels, Dim.invalid],
    fun c c' h => ?_⟩, sampleBinned_ok.buffer, fun c hc => ?_⟩
  · have h2 := h 2 (by simp [BinnedVar.content, sampleStored, labels])
    simp [BinnedVar.content, sampleStored, View.addr, addrAux, h2]
  · have h2 := hc 2 2 (by simp [BinnedVar.content, sampleStored])
    simp only [BinnedVar.content, sampleStored, View.addr, addrAux]
    have e2 : c 2 = 0 ∨ c 2 = 1 := by omega
    rcases e2 with e2 | e2 <;> rw [e2] <;> decide

example := C48_append_partial (· == ·) (by simp) (fun _ => 77) sampleStored sampleOther sampleStored_ok sampleOther_ok
  ⟨by decide, rfl, by decide⟩ sampleBinned_noNaN sampleOther_matches (by simp [sampleStored, sampleOther])

end Scipp.Props
