import Verif.Lemmas.BinnedIndex
import Verif.Props.MultiIndex
import Verif.Lemmas.View
/-!
Property C13 (iteration over binned data).
-/
namespace Scipp.Props
open Scipp Sizes
variable {N : Nat}

/-- What an elementwise operation on binned data must visit for the bins at row-major
positions `b ≤ x < e`: for each bin in order, for each event of the bin in order, the
element of each operand. The buffer has dims `A`, `sd` (the dim sliced by the bins, extent
`n`) and `B`. Binned operands: the buffer element at the event's coordinates, counted from
the begin of the bin. Other operands: the element for the bin. -/
def wantedEvents (A : Dims) (sd : Dim) (n : Int) (B : Dims) (bins : Dims) (ops : Fin N → BinnedIndex.Operand)
    (size : (Dim → Int) → Int) (b e : Int) : List (Vec N) :=
  (List.range (e - b).toNat).flatMap (fun (j : Nat) =>
    let c := coordsOf bins (b + j)
    let ed := A ++ (sd, size c) :: B
    (List.range (Dims.volume ed).toNat).map (fun (k : Nat) => fun i =>
      match (ops i).bins with
      | some (st, f) =>
        let ev := coordsOf ed k
        addrAux (A ++ (sd, n) :: B) st (upd ev sd (ev sd + (f (addrAux bins (ops i).strides c)).1))
      | none => addrAux bins (ops i).strides c))

/-- All binned operands have `size c` events in the bin at coordinates `c`. -/
def CommonSizes (bins : Dims) (ops : Fin N → BinnedIndex.Operand) (size : (Dim → Int) → Int) : Prop :=
  ∀ c, InDims bins c → ∀ i st f, (ops i).bins = some (st, f) →
    (f (addrAux bins (ops i).strides c)).2 - (f (addrAux bins (ops i).strides c)).1 = size c

/-- Strides of the buffers as handed to the iterator: none for operands without bins. -/
def bufStrides (ops : Fin N → BinnedIndex.Operand) : Fin N → List Int :=
  fun i => ((ops i).bins.map Prod.fst).getD []

/-- What construction establishes. -/
theorem binned_setup (A : Dims) (sd : Dim) (n : Int) (B bins : Dims) (ops : Fin N → BinnedIndex.Operand)
    (m0 : BinnedIndex N) (hbins : Sizes.WF bins) (hne : 0 < Dims.volume bins)
    (hB : ∀ p ∈ B, 0 < p.2)
    (hst : ∀ i, (ops i).strides.length = bins.length)
    (hz : NoZeroRun 1 (readDims bins (fun i => (ops i).strides)).reverse)
    (hzi : NoZeroRun (A.length + 1) (readDims (A ++ (sd, n) :: B) (bufStrides ops)).reverse)
    (hm0 : BinnedIndex.make0 (A ++ (sd, n) :: B) bins A.length ops = .ok m0) :
    ∃ (X K R O : List (Int × Vec N)) (nst : Vec N) (sc : Bool),
      (∀ s, readDims (A ++ (sd, s) :: B) (bufStrides ops) = (K ++ [(s, nst)]) ++ R) ∧
      (∀ i, nst i = (bufStrides ops i).getD A.length 0) ∧ K = readDims A (bufStrides ops) ∧ AllPos R ∧
      SameMem X R.reverse ∧
      OuterOk O (Dims.volume bins) ∧ (sc = true ↔ O = [(0, 0)]) ∧
      (∀ x, 0 ≤ x → x < Dims.volume bins →
        dot O (extractIndices x (dimSizes O)) = fun i => addrAux bins (ops i).strides (coordsOf bins x)) ∧
      BFrame X K.reverse O nst sc (fun i => (ops i).bins.isSome) (fun i => (ops i).bins.map Prod.snd) m0 ∧
      m0.outerCoord = extractIndices 0 (dimSizes O) ∧ m0.binIndex = dot O m0.outerCoord := by
  have hbpos : ∀ p ∈ bins, 0 < p.2 := allPos_of_lt hbins.2 (le_refl 0) hne
  have hvne : ¬ Dims.volume bins = 0 := by omega
  -- flattened dims of the buffer
  simp only [BinnedIndex.make0, bind, Except.bind] at hm0
  split at hm0
  · simp at hm0
  rename_i ins hins
  split at hm0
  · simp at hm0
  rename_i outs houts
  change flattenDims (A.length : Int) ndimOpMax (readDims (A ++ (sd, n) :: B) (bufStrides ops)) = _ at hins
  obtain ⟨K, R, nst, hrd, _, hKl, hnst, hKe, _, hRe⟩ := readDims_resize A B sd n n (bufStrides ops)
  rw [hrd] at hins hzi
  have hRpos : AllPos R := by rw [hRe]; exact readDims_allPos hB
  obtain ⟨X, hX, _, hsame⟩ := flattenDims_spec (K := K ++ [(n, nst)]) (R := R) (by simp [hKl]) hRpos
    (by simpa [hKl, List.reverse_append] using hzi) hins
  simp only [List.reverse_append, List.reverse_cons, List.reverse_nil, List.nil_append, List.singleton_append] at hX
  -- dims of the bins
  generalize hO : (if outs = [] then [((0 : Int), (0 : Vec N))] else outs) = O at hm0
  have hOok : OuterOk O (Dims.volume bins) ∧ (decide (outs = []) = true ↔ O = [(0, 0)]) ∧
      (∀ x, 0 ≤ x → x < Dims.volume bins →
        dot O (extractIndices x (dimSizes O)) = fun i => addrAux bins (ops i).strides (coordsOf bins x)) ∧
      extractIndices 0 (dimSizes O) = O.map (fun _ => 0) := by
    by_cases hb0 : bins = []
    · subst hb0
      have : outs = [] := by
        simp [readDims, flattenDims, flattenLoopMI] at houts
        exact houts
      subst this
      simp only [if_true] at hO
      subst hO
      refine ⟨.inr ⟨rfl, by simp⟩, by simp, fun x hx hx' => ?_, by simp [dimSizes, extractIndices]⟩
      simp at hx'
      have : x = 0 := by omega
      subst this
      funext i
      simp [dimSizes, extractIndices, dot]
    · obtain ⟨hne', hs⟩ := flattenDims_dense hbpos hb0 hz houts
      rw [if_neg hne'] at hO
      subst hO
      have hv : fvol outs = Dims.volume bins := by rw [hs.vol, fvol_readDims]
      refine ⟨.inl ⟨hs.pos, hne', hv.symm⟩, ?_, fun x hx hx' => ?_, extract_zero _ hs.pos hne'⟩
      · constructor
        · intro h; exact absurd (of_decide_eq_true h) hne'
        · intro h; have := hs.pos; rw [h] at this; have := this.head; simp at this
      · rw [← memAt_readDims hbins hst hx hx', ← hs.mem x hx]
        exact dot_extract _ _ hs.pos hx (by omega)
  obtain ⟨hO1, hO2, hO3, hO4⟩ := hOok
  -- the frame
  injection hm0 with hm0
  refine ⟨X, K, R, O, nst, decide (outs = []), ?_, hnst, hKe, hRpos, hsame, hO1, hO2, hO3, ?_, ?_, ?_⟩
  · intro s
    obtain ⟨K', R', nst', _, hrds, _, hnst', hKe', _, hRe'⟩ := readDims_resize A B sd n s (bufStrides ops)
    have hK' : K' = K := by rw [hKe', hKe]
    have hR' : R' = R := by rw [hRe', hRe]
    have hn' : nst' = nst := by funext i; rw [hnst', hnst]
    subst hK'; subst hR'; subst hn'
    exact hrds
  · subst hm0
    refine ⟨⟨n, hX⟩, rfl, rfl, ?_, rfl, by simp [hvne]⟩
    simp only [hX, List.length_append, List.length_cons, List.length_reverse, hKl]
    omega
  · subst hm0; exact hO4.symm
  · subst hm0
    exact (dot_zero _ _ (by simp)).symm

/-- Iteration from the bin `b` to the bin `e`. -/
theorem c13_from (A : Dims) (sd : Dim) (n : Int) (B bins : Dims) (ops : Fin N → BinnedIndex.Operand)
    (size : (Dim → Int) → Int) (sf fuel : Nat) (q q' : BinnedIndex N) (b e : Int)
    (hbuf : Sizes.WF (A ++ (sd, n) :: B)) (hbins : Sizes.WF bins) (hne : 0 < Dims.volume bins)
    (hA : ∀ p ∈ A, 0 < p.2) (hB : ∀ p ∈ B, 0 < p.2)
    (hst : ∀ i, (ops i).strides.length = bins.length)
    (hbst : ∀ i st f, (ops i).bins = some (st, f) → st.length = A.length + 1 + B.length)
    (hany : ∃ i, (ops i).bins.isSome)
    (hsz : CommonSizes bins ops size) (hsz0 : ∀ c, InDims bins c → 0 ≤ size c)
    (hz : NoZeroRun 1 (readDims bins (fun i => (ops i).strides)).reverse)
    (hzi : NoZeroRun (A.length + 1) (readDims (A ++ (sd, n) :: B) (bufStrides ops)).reverse)
    (hm : BinnedIndex.make sf (A ++ (sd, n) :: B) bins A.length ops = .ok (some q) ∨
      BinnedIndex.make0 (A ++ (sd, n) :: B) bins A.length ops = .ok q)
    (hm' : BinnedIndex.make sf (A ++ (sd, n) :: B) bins A.length ops = .ok (some q'))
    (h0 : 0 ≤ b) (hbe : b ≤ e) (hev : e ≤ Dims.volume bins) (hsf : Dims.volume bins ≤ sf)
    (hf : (wantedEvents A sd n B bins ops size b e).length < fuel) :
    ∃ x y, q.setIndex sf b = some x ∧ q'.setIndex sf e = some y ∧
      BinnedIndex.run sf fuel x y = some (wantedEvents A sd n B bins ops size b e) := by
  simp only [BinnedIndex.make, bind, Except.bind] at hm hm'
  split at hm'
  · simp at hm'
  rename_i m0 hm0
  obtain ⟨X, K, R, O, nst, sc, hrd, hnst, hKe, hRpos, hsame, hO1, hO2, hO3, fr0, _, _⟩ :=
    binned_setup A sd n B bins ops m0 hbins hne hB hst hz hzi hm0
  have hKpos : AllPos K := by rw [hKe]; exact readDims_allPos hA
  have hKr : AllPos K.reverse := fun p hp => hKpos p (by simpa using hp)
  have hRr : AllPos R.reverse := fun p hp => hRpos p (by simpa using hp)
  have fr1 := (BFrame.loadList (List.finRange N) fr0).1
  have fr' : ∀ m, (Except.ok (if m0.loadAll.nestedSize = 0 ∨ Dims.volume bins = 0 then m0.loadAll.seekBin sf
      else some m0.loadAll) : Except Err _) = .ok (some m) →
      BFrame X K.reverse O nst sc (fun i => (ops i).bins.isSome) (fun i => (ops i).bins.map Prod.snd) m := by
    intro m hm
    injection hm with hm
    split at hm
    · exact seekBin_frame _ _ _ fr1 hm
    · injection hm with hm; rw [← hm]; exact fr1
  have fr : BFrame X K.reverse O nst sc (fun i => (ops i).bins.isSome) (fun i => (ops i).bins.map Prod.snd) q := by
    rcases hm with hm | hm
    · rw [hm0] at hm; exact fr' q hm
    · rw [hm0] at hm; injection hm with hm; rw [← hm]; exact fr0
  -- sizes
  have hS : SizesOk O (fun i => (ops i).bins.isSome) (fun i => (ops i).bins.map Prod.snd)
      (fun x => size (coordsOf bins x)) (Dims.volume bins) := by
    intro x hx hx' i hi
    cases hbi : (ops i).bins with
    | none => simp [hbi] at hi
    | some sf' =>
      obtain ⟨st, f⟩ := sf'
      refine ⟨f, by simp [hbi], ?_⟩
      rw [hO3 x hx hx']
      exact hsz _ (coordsOf_inDims hbins hx hx') i st f hbi
  -- calls agree
  have hcalls : rangeCalls X K.reverse O nst (fun i => (ops i).bins.isSome) (fun i => (ops i).bins.map Prod.snd)
      (fun x => size (coordsOf bins x)) b e = wantedEvents A sd n B bins ops size b e := by
    simp only [rangeCalls, wantedEvents]
    rw [List.flatMap_def, List.flatMap_def]
    congr 1
    apply List.map_congr_left
    intro j hj
    simp only [List.mem_range] at hj
    generalize hx : b + (j : Int) = x
    have hx0 : 0 ≤ x := by omega
    have hx1 : x < Dims.volume bins := by omega
    have hs0 : 0 ≤ size (coordsOf bins x) := hsz0 _ (coordsOf_inDims hbins hx0 hx1)
    generalize hs : size (coordsOf bins x) = s at hs0
    have hbc : (A ++ (sd, s) :: B).length = A.length + 1 + B.length := by simp; omega
    have hrds := hrd s
    have hvol : fvol (binDims X K.reverse nst s) = Dims.volume (A ++ (sd, s) :: B) := by
      rw [← fvol_readDims (A ++ (sd, s) :: B) (bufStrides ops), hrds]
      simp only [binDims, List.reverse_append, List.reverse_cons, List.reverse_nil, List.nil_append,
        fvol_append, fvol, hsame.vol]
      ring
    simp only [binCalls, hs, hvol, Int.sub_zero, Int.zero_add]
    apply List.map_congr_left
    intro k hk
    simp only [List.mem_range] at hk
    have hspos : 0 < s := by
      rcases lt_or_eq_of_le hs0 with h | h
      · exact h
      · rw [← h] at hk
        simp at hk
    have hWF : Sizes.WF (A ++ (sd, s) :: B) := by
      refine ⟨by simpa using hbuf.1, fun p hp => ?_⟩
      rcases List.mem_append.1 hp with hp | hp
      · exact le_of_lt (hA p hp)
      · rcases List.mem_cons.1 hp with rfl | hp
        · exact hs0
        · exact le_of_lt (hB p hp)
    have hk0 : (0 : Int) ≤ k := by omega
    have hk1 : (k : Int) < Dims.volume (A ++ (sd, s) :: B) := by omega
    have hsn : AllPos ((s, nst) :: K.reverse) := by
      intro p hp
      rcases List.mem_cons.1 hp with rfl | hp
      · exact hspos
      · exact hKr p hp
    have hmem : memAt (binDims X K.reverse nst s) k = memAt (readDims (A ++ (sd, s) :: B) (bufStrides ops)).reverse k := by
      rw [hrds]
      have := (hsame.append hRr hsn).mem k hk0
      simpa [binDims] using this
    rw [hmem]
    funext i
    simp only [Pi.add_apply, binBase, hO3 x hx0 hx1]
    cases hbi : (ops i).bins with
    | none =>
      have hz0 : ∀ (dims : Dims) (st : Fin N → List Int), st i = [] → ∀ k, memAt (readDims dims st).reverse k i = 0 := by
        intro dims st hsti k
        rw [memAt_apply]
        have h1 : ∀ (L : List (Int × Int)), (∀ p ∈ L, p.2 = 0) → ∀ k, memAt L k = 0 := by
          intro L
          induction L with
          | nil => intro _ k; rfl
          | cons p L ih =>
            intro h k
            rw [memAt, h p (by simp), ih (fun q hq => h q (List.mem_cons_of_mem _ hq))]; simp
        apply h1
        have h2 : ∀ (dims : Dims) (st : Fin N → List Int), st i = [] → ∀ p ∈ readDims dims st, p.2 i = 0 := by
          intro dims
          induction dims with
          | nil => intro st _ p hp; simp [readDims] at hp
          | cons d dims ih =>
            intro st hst p hp
            simp only [readDims, List.mem_cons] at hp
            rcases hp with rfl | hp
            · simp [hst]
            · exact ih _ (by simp [hst]) p hp
        intro p hp
        obtain ⟨q, hq, rfl⟩ := List.mem_map.1 hp
        exact h2 dims st hsti q (by simpa using hq)
      rw [hz0 _ _ (by simp [bufStrides, hbi])]
      simp
    | some sf' =>
      obtain ⟨st, f⟩ := sf'
      have hbs : bufStrides ops i = st := by simp [bufStrides, hbi]
      have hl := hbst i st f hbi
      rw [memAt_apply, List.map_reverse, readDims_map i _ _ (by rw [hbs, hl, hbc])]
      have := memAt_addr (A ++ (sd, s) :: B) st (by rw [hl, hbc]) _ (coordsOf_inDims hWF hk0 hk1)
      rw [position_coordsOf hWF hk0 hk1] at this
      rw [hbs]
      change _ + memAt (fastFirst (A ++ (sd, s) :: B) st) k = _
      rw [this]
      simp only [Option.isSome_some, if_true, Option.map_some]
      -- split the strides
      obtain ⟨s1, y, s2, rfl, hs1⟩ : ∃ s1 y s2, st = s1 ++ y :: s2 ∧ s1.length = A.length := by
        refine ⟨st.take A.length, st[A.length]'(by omega), st.drop (A.length + 1), ?_, by simp; omega⟩
        rw [List.getElem_cons_drop, List.take_append_drop]
      have hny : nst i = y := by
        rw [hnst, hbs, ← hs1]; simp
      have hnd := hbuf.1
      simp only [labels_append, labels_cons, List.nodup_append, List.nodup_cons] at hnd
      rw [addrAux_mid hs1, addrAux_mid hs1, addrAux_upd (fun h => hnd.2.2 sd h sd (by simp) rfl),
        addrAux_upd hnd.2.1.1]
      rw [hny]
      simp only [upd, if_true]
      ring
  rw [← hcalls] at hf ⊢
  refine binned_runFrom hO1 hO2 hS ?_ hsame.pos hKr ?_ hsf fr (fr' q' hm') h0 hbe hev hf
  · simpa using hany
  · intro x hx hx'
    exact hsz0 _ (coordsOf_inDims hbins hx hx')

/-- **C13**: iterating over the bins `[b, e)` visits every event of these bins exactly
once, in order, with the corresponding elements of all operands, for any bin sizes and
any position and order of the bins in the buffers. Partial: the dims of the bins and of the
buffer must not show the pattern excluded by `NoZeroRun`, and the other dims of the buffer must
not have extent 0. -/
theorem C13_block_partial (A : Dims) (sd : Dim) (n : Int) (B bins : Dims) (ops : Fin N → BinnedIndex.Operand)
    (size : (Dim → Int) → Int) (sf fuel : Nat) (m : BinnedIndex N) (b e : Int)
    (hbuf : Sizes.WF (A ++ (sd, n) :: B)) (hbins : Sizes.WF bins) (hne : 0 < Dims.volume bins)
    (hA : ∀ p ∈ A, 0 < p.2) (hB : ∀ p ∈ B, 0 < p.2)
    (hst : ∀ i, (ops i).strides.length = bins.length)
    (hbst : ∀ i st f, (ops i).bins = some (st, f) → st.length = A.length + 1 + B.length)
    (hany : ∃ i, (ops i).bins.isSome)
    (hsz : CommonSizes bins ops size) (hsz0 : ∀ c, InDims bins c → 0 ≤ size c)
    (hz : NoZeroRun 1 (readDims bins (fun i => (ops i).strides)).reverse)
    (hzi : NoZeroRun (A.length + 1) (readDims (A ++ (sd, n) :: B) (bufStrides ops)).reverse)
    (hm : BinnedIndex.make sf (A ++ (sd, n) :: B) bins A.length ops = .ok (some m))
    (h0 : 0 ≤ b) (hbe : b ≤ e) (hev : e ≤ Dims.volume bins) (hsf : Dims.volume bins ≤ sf)
    (hf : (wantedEvents A sd n B bins ops size b e).length < fuel) :
    m.runBlock sf fuel b e = some (wantedEvents A sd n B bins ops size b e) := by
  obtain ⟨x, y, hx, hy, hr⟩ := c13_from A sd n B bins ops size sf fuel m m b e hbuf hbins hne hA hB hst hbst hany hsz hsz0 hz hzi
    (.inl hm) hm h0 hbe hev hsf hf
  simp only [BinnedIndex.runBlock, hx, hy, hr]

/-- Checking two binned operands establishes that corresponding bins have the same size. -/
theorem validatePair_sound (dims : Dims) (a b : List Int × (Int → Int × Int)) (hw : Sizes.WF dims)
    (ha : a.1.length = dims.length) (hb : b.1.length = dims.length)
    (hz : NoZeroRun 1 (readDims dims (Fin.cons a.1 (Fin.cons b.1 Fin.elim0) : Fin 2 → List Int)).reverse)
    (h : BinnedIndex.validatePair dims a b = .ok ()) (c : Dim → Int) (hc : InDims dims c) :
    (a.2 (addrAux dims a.1 c)).2 - (a.2 (addrAux dims a.1 c)).1 =
    (b.2 (addrAux dims b.1 c)).2 - (b.2 (addrAux dims b.1 c)).1 := by
  have hb := position_bounds hc
  have hpos : ∀ p ∈ dims, 0 < p.2 := allPos_of_lt hw.2 hb.1 hb.2
  have hcl : ∀ d ∈ labels dims, coordsOf dims (position dims c) d = c d := coordsOf_position hw.1 hc
  simp only [BinnedIndex.validatePair, bind, Except.bind] at h
  split at h
  · simp at h
  rename_i m hm
  by_cases hd : dims = []
  · subst hd
    have hm' : m = ⟨0, [(0, 0)], [0]⟩ := by
      simp [MultiIndex.make, readDims, flattenDims, flattenLoopMI, bind, Except.bind] at hm
      exact hm.symm
    subst hm'
    simp [BinnedIndex.validateLoop] at h
    simpa using h
  · simp only [MultiIndex.make, bind, Except.bind] at hm
    split at hm
    · simp at hm
    rename_i ds hds
    obtain ⟨hne, hs⟩ := flattenDims_dense hpos hd hz hds
    rw [if_neg hne] at hm
    injection hm with hm
    obtain ⟨p, L, rfl⟩ : ∃ p L, ds = p :: L := by
      cases ds with
      | nil => exact absurd rfl hne
      | cons p L => exact ⟨p, L, rfl⟩
    have hvol : fvol (p :: L) = Dims.volume dims := by rw [hs.vol, fvol_readDims]
    have key : ∀ (n : Nat) (k : Int) (x : MultiIndex 2), MInv (p :: L) k x → 0 ≤ k → k + n ≤ fvol (p :: L) →
        BinnedIndex.validateLoop a.2 b.2 n x = .ok () → ∀ j : Int, k ≤ j → j < k + n →
        (a.2 (memAt (p :: L) j 0)).2 - (a.2 (memAt (p :: L) j 0)).1 =
        (b.2 (memAt (p :: L) j 1)).2 - (b.2 (memAt (p :: L) j 1)).1 := by
      intro n
      induction n with
      | zero => intro k x _ _ _ _ j h1 h2; simp at h2; omega
      | succ n ih =>
        intro k x hx hk hkn hl j h1 h2
        push_cast at hkn h2
        have hxd : x.data = memAt (p :: L) k := by
          rw [hx.data, hx.coord]; exact dot_extract _ _ hs.pos hk (by omega)
        simp only [BinnedIndex.validateLoop, hxd] at hl
        split at hl
        · simp at hl
        · rename_i heq
          by_cases hj : j = k
          · subst hj; simpa using heq
          · refine ih (k + 1) _ (hx.incrementBy hs.pos hk (by omega) (fun hL => ?_)) (by omega) (by omega) hl j
              (by omega) (by omega)
            obtain ⟨q, L', rfl⟩ : ∃ q L', L = q :: L' := by
              cases L with
              | nil => exact absurd rfl hL
              | cons q L' => exact ⟨q, L', rfl⟩
            simp only [dimSizes, List.map_cons]
            rw [extract_cons2 hk hs.pos.head]
            have := Int.emod_lt_of_pos k hs.pos.head
            simp only [List.headD_cons]
            omega
    have h0 : MInv (p :: L) 0 m := by
      rw [← hm]
      refine ⟨rfl, (extract_zero _ hs.pos (by simp)).symm, ?_⟩
      rw [dot_zero _ _ (by simp)]
    have hfin := key _ 0 m h0 (le_refl _) (by omega) h (position dims c) hb.1 (by omega)
    have hmem : memAt (p :: L) (position dims c) = fun i => addrAux dims
        ((Fin.cons a.1 (Fin.cons b.1 Fin.elim0) : Fin 2 → List Int) i) (coordsOf dims (position dims c)) := by
      rw [hs.mem _ hb.1]
      refine memAt_readDims hw (fun i => ?_) hb.1 hb.2
      refine Fin.cases ha (fun j => ?_) i
      refine Fin.cases (by simpa) (fun k => k.elim0) j
    rw [hmem] at hfin
    simp only at hfin
    have e0 : (Fin.cons a.1 (Fin.cons b.1 Fin.elim0) : Fin 2 → List Int) 0 = a.1 := rfl
    have e1 : (Fin.cons a.1 (Fin.cons b.1 Fin.elim0) : Fin 2 → List Int) 1 = b.1 := rfl
    rw [e0, e1, addrAux_congr hcl, addrAux_congr hcl] at hfin
    exact hfin

/-- **C13** (validation): if the check made before iterating succeeds, all binned operands
have the same number of events in corresponding bins, as `C13_block_partial` requires. -/
theorem C13_validated_sizes_partial (dims : Dims) (hw : Sizes.WF dims) : ∀ (p0 : BinnedIndex.Operand)
    (ps : List BinnedIndex.Operand),
    (∀ p ∈ p0 :: ps, p.strides.length = dims.length) →
    (∀ p ∈ p0 :: ps, ∀ q ∈ p0 :: ps,
      NoZeroRun 1 (readDims dims (Fin.cons p.strides (Fin.cons q.strides Fin.elim0) : Fin 2 → List Int)).reverse) →
    BinnedIndex.validateAll dims p0 ps = .ok () →
    ∀ p ∈ p0 :: ps, ∀ q ∈ p0 :: ps, ∀ st f st' f', p.bins = some (st, f) → q.bins = some (st', f') →
      ∀ c, InDims dims c →
        (f (addrAux dims p.strides c)).2 - (f (addrAux dims p.strides c)).1 =
        (f' (addrAux dims q.strides c)).2 - (f' (addrAux dims q.strides c)).1 := by
  intro p0 ps
  induction ps generalizing p0 with
  | nil =>
    intro _ _ _ p hp q hq st f st' f' hpb hqb c _
    simp at hp hq
    subst hp; subst hq
    rw [hpb] at hqb
    injection hqb with e
    injection e with _ e
    rw [e]
  | cons p1 ps ih =>
    intro hl hz h
    -- the operand kept for the remaining comparisons
    have key : ∀ (k d : BinnedIndex.Operand), (k = p0 ∧ d = p1 ∨ k = p1 ∧ d = p0) →
        BinnedIndex.validateAll dims k ps = .ok () →
        (∀ st f, d.bins = some (st, f) → ∃ st' f', k.bins = some (st', f') ∧ ∀ c, InDims dims c →
          (f (addrAux dims d.strides c)).2 - (f (addrAux dims d.strides c)).1 =
          (f' (addrAux dims k.strides c)).2 - (f' (addrAux dims k.strides c)).1) →
        ∀ p ∈ p0 :: p1 :: ps, ∀ q ∈ p0 :: p1 :: ps, ∀ st f st' f', p.bins = some (st, f) → q.bins = some (st', f') →
          ∀ c, InDims dims c →
            (f (addrAux dims p.strides c)).2 - (f (addrAux dims p.strides c)).1 =
            (f' (addrAux dims q.strides c)).2 - (f' (addrAux dims q.strides c)).1 := by
      intro k d hkd hv hd
      have hsub : ∀ p ∈ k :: ps, p ∈ p0 :: p1 :: ps := by
        intro p hp
        rcases List.mem_cons.1 hp with rfl | hp
        · rcases hkd with ⟨rfl, _⟩ | ⟨rfl, _⟩ <;> simp
        · simp [hp]
      have hih := ih k (fun p hp => hl p (hsub p hp)) (fun p hp q hq => hz p (hsub p hp) q (hsub q hq)) hv
      have hred : ∀ p ∈ p0 :: p1 :: ps, p ∈ k :: ps ∨ p = d := by
        intro p hp
        simp only [List.mem_cons] at hp ⊢
        rcases hkd with ⟨rfl, rfl⟩ | ⟨rfl, rfl⟩ <;> tauto
      -- every binned operand has the size of a binned operand among `k :: ps`
      have hrep : ∀ p ∈ p0 :: p1 :: ps, ∀ st f, p.bins = some (st, f) → ∃ p' ∈ k :: ps, ∃ st' f',
          p'.bins = some (st', f') ∧ ∀ c, InDims dims c →
          (f (addrAux dims p.strides c)).2 - (f (addrAux dims p.strides c)).1 =
          (f' (addrAux dims p'.strides c)).2 - (f' (addrAux dims p'.strides c)).1 := by
        intro p hp st f hb
        rcases hred p hp with h | rfl
        · exact ⟨p, h, st, f, hb, fun _ _ => rfl⟩
        · obtain ⟨st', f', h1, h2⟩ := hd st f hb
          exact ⟨k, by simp, st', f', h1, h2⟩
      intro p hp q hq st f st' f' hpb hqb c hc
      obtain ⟨p', hp', st1, f1, hb1, he1⟩ := hrep p hp st f hpb
      obtain ⟨q', hq', st2, f2, hb2, he2⟩ := hrep q hq st' f' hqb
      rw [he1 c hc, he2 c hc]
      exact hih p' hp' q' hq' st1 f1 st2 f2 hb1 hb2 c hc
    simp only [BinnedIndex.validateAll] at h
    cases h0 : p0.bins with
    | none =>
      simp only [h0, bind, Except.bind, Option.isSome_none, Bool.false_eq_true, if_false] at h
      exact key p1 p0 (.inr ⟨rfl, rfl⟩) h (fun st f hb => by rw [h0] at hb; simp at hb)
    | some b0 =>
      cases h1 : p1.bins with
      | none =>
        simp only [h0, h1, bind, Except.bind, Option.isSome_some, if_true] at h
        exact key p0 p1 (.inl ⟨rfl, rfl⟩) h (fun st f hb => by rw [h1] at hb; simp at hb)
      | some b1 =>
        simp only [h0, h1, bind, Except.bind, Option.isSome_some, if_true] at h
        split at h
        · simp at h
        · rename_i hp
          refine key p0 p1 (.inl ⟨rfl, rfl⟩) h (fun st f hb => ⟨b0.1, b0.2, h0, fun c hc => ?_⟩)
          rw [h1] at hb
          injection hb with hb
          have := validatePair_sound dims (p0.strides, b0.2) (p1.strides, b1.2) hw (hl p0 (by simp)) (hl p1 (by simp))
            (hz p0 (by simp) p1 (by simp)) hp c hc
          rw [this, hb]

/-- The constructor of the iterator ends: skipping empty bins at the start takes at most as
many steps as there are bins. -/
theorem C13_constructor_terminates (A : Dims) (sd : Dim) (n : Int) (B bins : Dims)
    (ops : Fin N → BinnedIndex.Operand) (sf : Nat) (size : (Dim → Int) → Int)
    (hbins : Sizes.WF bins) (hne : 0 < Dims.volume bins)
    (hB : ∀ p ∈ B, 0 < p.2)
    (hst : ∀ i, (ops i).strides.length = bins.length)
    (hany : ∃ i, (ops i).bins.isSome) (hsz : CommonSizes bins ops size)
    (hz : NoZeroRun 1 (readDims bins (fun i => (ops i).strides)).reverse)
    (hzi : NoZeroRun (A.length + 1) (readDims (A ++ (sd, n) :: B) (bufStrides ops)).reverse)
    (hsf : Dims.volume bins ≤ sf) :
    BinnedIndex.make sf (A ++ (sd, n) :: B) bins A.length ops ≠ .ok none := by
  intro hm
  simp only [BinnedIndex.make, bind, Except.bind] at hm
  split at hm
  · simp at hm
  rename_i m0 hm0
  obtain ⟨X, K, R, O, nst, sc, _, _, _, _, _, hO1, hO2, hO3, fr0, hoc, hbi⟩ :=
    binned_setup A sd n B bins ops m0 hbins hne hB hst hz hzi hm0
  obtain ⟨fr1, _, c1, c2⟩ := BFrame.loadList (List.finRange N) fr0
  have hS : SizesOk O (fun i => (ops i).bins.isSome) (fun i => (ops i).bins.map Prod.snd)
      (fun x => size (coordsOf bins x)) (Dims.volume bins) := by
    intro x hx hx' i hi
    cases hbi : (ops i).bins with
    | none => simp [hbi] at hi
    | some sf' =>
      obtain ⟨st, f⟩ := sf'
      refine ⟨f, by simp [hbi], ?_⟩
      rw [hO3 x hx hx']
      exact hsz _ (coordsOf_inDims hbins hx hx') i st f hbi
  injection hm with hm
  split at hm
  · obtain ⟨m', b', e1, _⟩ := seekBin_spec hO1 hS (by simpa using hany) sf m0.loadAll 0 fr1 (le_refl _) hne
      (c1.trans hoc) (by rw [show m0.loadAll.binIndex = m0.binIndex from c2, hbi, show m0.loadAll.outerCoord = m0.outerCoord from c1]) (by omega)
    rw [hm] at e1
    simp at e1
  · simp at hm

/-- **C13** (constructor): the constructed index stands where `set_index(0)` puts it, i.e. at the
first bin that is not empty. -/
theorem C13_constructed_at_begin (A : Dims) (sd : Dim) (n : Int) (B bins : Dims)
    (ops : Fin N → BinnedIndex.Operand) (sf : Nat) (m0 : BinnedIndex N)
    (hbins : Sizes.WF bins) (hne : 0 < Dims.volume bins)
    (hB : ∀ p ∈ B, 0 < p.2)
    (hst : ∀ i, (ops i).strides.length = bins.length)
    (hz : NoZeroRun 1 (readDims bins (fun i => (ops i).strides)).reverse)
    (hzi : NoZeroRun (A.length + 1) (readDims (A ++ (sd, n) :: B) (bufStrides ops)).reverse)
    (hm0 : BinnedIndex.make0 (A ++ (sd, n) :: B) bins A.length ops = .ok m0) :
    BinnedIndex.make sf (A ++ (sd, n) :: B) bins A.length ops = .ok (m0.setIndex sf 0) := by
  obtain ⟨X, K, R, O, nst, sc, _, _, _, _, _, hO1, hO2, hO3, fr0, hoc, hbi⟩ :=
    binned_setup A sd n B bins ops m0 hbins hne hB hst hz hzi hm0
  obtain ⟨fr1, _, c1, c2⟩ := BFrame.loadList (List.finRange N) fr0
  have hinner : m0.innerCoord = m0.inner.map (fun _ => 0) := by
    simp only [BinnedIndex.make0, bind, Except.bind] at hm0
    split at hm0
    · simp at hm0
    split at hm0
    · simp at hm0
    injection hm0 with hm0
    rw [← hm0]
  have e1 : ({ m0 with innerCoord := m0.inner.map (fun _ => 0), outerCoord := extractIndices 0 (dimSizes m0.outer) } :
      BinnedIndex N) = m0 := by
    rw [← hinner, show m0.outer = O from fr0.outer, ← hoc, ← fr0.outer]
  have e2 : ({ m0 with binIndex := flatVec m0.outer m0.outerCoord } : BinnedIndex N) = m0 := by
    rw [flatVec_eq, show m0.outer = O from fr0.outer, ← hbi, ← fr0.outer]
  have hend : m0.loadAll.atEnd = false := by
    rw [show m0.loadAll.atEnd = m0.atEnd from BFrame.atEnd_congr fr0 fr1 c1]
    cases h : m0.atEnd with
    | false => rfl
    | true =>
      simp only [BinnedIndex.atEnd, decide_eq_true_eq, fr0.outer, hoc] at h
      have := (hO1.atEnd (le_refl _) (le_of_lt hne)).1 h
      omega
  have hv : Dims.volume bins ≠ 0 := by omega
  simp only [BinnedIndex.make, bind, Except.bind, hm0, BinnedIndex.setIndex, ne_eq, not_true, and_false, if_false, e1, e2,
    hend, hv, or_false, Bool.not_false, and_true]

/-- **C13** (serial iteration): iterating from the constructed index to the end, as done for an output with stride 0, visits every event
of all bins exactly once, in order. -/
theorem C13_serial_partial (A : Dims) (sd : Dim) (n : Int) (B bins : Dims) (ops : Fin N → BinnedIndex.Operand)
    (size : (Dim → Int) → Int) (sf fuel : Nat) (m : BinnedIndex N)
    (hbuf : Sizes.WF (A ++ (sd, n) :: B)) (hbins : Sizes.WF bins) (hne : 0 < Dims.volume bins)
    (hA : ∀ p ∈ A, 0 < p.2) (hB : ∀ p ∈ B, 0 < p.2)
    (hst : ∀ i, (ops i).strides.length = bins.length)
    (hbst : ∀ i st f, (ops i).bins = some (st, f) → st.length = A.length + 1 + B.length)
    (hany : ∃ i, (ops i).bins.isSome)
    (hsz : CommonSizes bins ops size) (hsz0 : ∀ c, InDims bins c → 0 ≤ size c)
    (hz : NoZeroRun 1 (readDims bins (fun i => (ops i).strides)).reverse)
    (hzi : NoZeroRun (A.length + 1) (readDims (A ++ (sd, n) :: B) (bufStrides ops)).reverse)
    (hm : BinnedIndex.make sf (A ++ (sd, n) :: B) bins A.length ops = .ok (some m))
    (hsf : Dims.volume bins ≤ sf)
    (hf : (wantedEvents A sd n B bins ops size 0 (Dims.volume bins)).length < fuel) :
    ∃ e, m.setIndex sf (Dims.volume bins) = some e ∧
      BinnedIndex.run sf fuel m e = some (wantedEvents A sd n B bins ops size 0 (Dims.volume bins)) := by
  obtain ⟨m0, hm0⟩ : ∃ m0, BinnedIndex.make0 (A ++ (sd, n) :: B) bins A.length ops = .ok m0 := by
    cases h : BinnedIndex.make0 (A ++ (sd, n) :: B) bins A.length ops with
    | ok m0 => exact ⟨m0, rfl⟩
    | error e => simp [BinnedIndex.make, bind, Except.bind, h] at hm
  obtain ⟨x, y, hx, hy, hr⟩ := c13_from A sd n B bins ops size sf fuel m0 m 0 (Dims.volume bins) hbuf hbins hne hA hB hst hbst hany
    hsz hsz0 hz hzi (.inr hm0) hm (le_refl 0) (le_of_lt hne) (le_refl _) hsf hf
  have := C13_constructed_at_begin A sd n B bins ops sf m0 hbins hne hB hst hz hzi hm0
  rw [hm, hx] at this
  cases this
  exact ⟨y, hy, hr⟩

/-- Four bins of sizes 0, 2, 0, 1 (begin positions out of order in the buffer), with a dense
operand, the buffer having a second dim of extent 2. -/
def exampleOps : Fin 2 → BinnedIndex.Operand := Fin.cons
  ⟨[1], some ([2, 1], fun b => if b = 1 then (3, 5) else if b = 3 then (0, 1) else (2, 2))⟩
  (Fin.cons ⟨[10], none⟩ Fin.elim0)

/-- The hypotheses of `C13_block_partial` and `C13_constructor_terminates` hold for it. -/
example : CommonSizes [(2, 4)] exampleOps (fun c => if c 2 = 1 then 2 else if c 2 = 3 then 1 else 0) ∧
    NoZeroRun 1 (readDims [(2, 4)] (fun i => (exampleOps i).strides)).reverse ∧
    NoZeroRun 1 (readDims ([] ++ (3, 6) :: [(4, 2)]) (bufStrides exampleOps)).reverse ∧
    (∃ i, (exampleOps i).bins.isSome) := by
  refine ⟨?_, .inr (by simp), .inr (by simp), 0, rfl⟩
  intro c hc i st f h
  have := hc 2 4 (by simp)
  revert h
  refine Fin.cases (fun h => ?_) (fun j => Fin.cases (fun h => ?_) (fun k => k.elim0) j) i
  · injection h with h
    injection h with _ h
    subst h
    simp only [exampleOps, Fin.cons_zero, addrAux]
    simp only [Int.mul_one, Int.add_zero]
    split
    · simp
    · split <;> simp
  · cases h

example : ((BinnedIndex.make 4 ([] ++ (3, 6) :: [(4, 2)]) [(2, 4)] 0 exampleOps).map (fun m =>
    (m.bind (fun m => m.runBlock 4 10 0 4)).map (·.map (fun v => [v 0, v 1])))) =
    (.ok (some [[6, 10], [7, 10], [8, 10], [9, 10], [0, 30], [1, 30]]) : Except Err _) := by decide

/-- Serial iteration from the constructed index to the end. -/
example : ((BinnedIndex.make 4 ([] ++ (3, 6) :: [(4, 2)]) [(2, 4)] 0 exampleOps).map (fun m =>
    (m.bind (fun m => (m.setIndex 4 4).bind (fun e => BinnedIndex.run 4 10 m e))).map (·.map (fun v => [v 0, v 1])))) =
    (.ok (some [[6, 10], [7, 10], [8, 10], [9, 10], [0, 30], [1, 30]]) : Except Err _) := by decide

/-- Starting and stopping in between. -/
example : ((BinnedIndex.make 4 ([] ++ (3, 6) :: [(4, 2)]) [(2, 4)] 0 exampleOps).map (fun m =>
    (m.bind (fun m => m.runBlock 4 10 2 4)).map (·.map (fun v => [v 0, v 1])))) =
    (.ok (some [[0, 30], [1, 30]]) : Except Err _) := by decide

/-- Sizes 2 and 3 in the second bin are rejected. -/
example : BinnedIndex.validateAll [(2, 2)] ⟨[1], some ([1], fun b => (b, b + 2))⟩
    [⟨[0], none⟩, ⟨[1], some ([1], fun b => (b, b + 2 + b))⟩] = .error .binned := by decide

/-- **C13**, negation for buffers with another dim of extent 0: there is no event, but the
operation is called (on an element outside the buffer). -/
theorem C13_wrong_for_empty_buffer_dim : ∃ (A : Dims) (sd : Dim) (n : Int) (B bins : Dims)
    (ops : Fin 1 → BinnedIndex.Operand) (m : BinnedIndex 1) (calls : List (Vec 1)),
    Sizes.WF (A ++ (sd, n) :: B) ∧ Sizes.WF bins ∧
    BinnedIndex.make 9 (A ++ (sd, n) :: B) bins A.length ops = .ok (some m) ∧
    m.runBlock 9 9 0 (Dims.volume bins) = some calls ∧ calls ≠ [] ∧
    wantedEvents A sd n B bins ops (fun _ => 2) 0 (Dims.volume bins) = [] := by
  refine ⟨[(4, 0)], 3, 2, [], [(2, 1)], fun _ => ⟨[1], some ([2, 1], fun _ => (0, 2))⟩, ?_⟩
  let mm : BinnedIndex 1 := (match BinnedIndex.make 9 ([(4, 0)] ++ (3, 2) :: []) [(2, 1)] 1
    (fun _ => ⟨[1], some ([2, 1], fun _ => (0, 2))⟩) with
    | .ok (some m) => m
    | _ => ⟨0, [], [], [], [], true, 0, fun _ => false, fun _ => none, 0⟩)
  exact ⟨mm, [fun _ => 0, fun _ => 1], by simp [Sizes.WF], by simp [Sizes.WF], rfl, by decide, by simp, by decide⟩

/-- **C13**, memory safety of the constructor: the dims of buffer and bins together fit into the arrays of the index
(`NDIM_OP_MAX = 6`, coords and shape have one more), unless the variable is a scalar, which uses one more entry of the strides; see
`C13_wrong_for_scalar`. -/
theorem C13_within_arrays_partial (inner bins : Dims) (k : Nat) (ops : Fin N → BinnedIndex.Operand) (m : BinnedIndex N)
    (h : BinnedIndex.make0 inner bins k ops = .ok m) :
    m.inner.length + m.outer.length ≤ 7 ∧ (m.scalar = false → m.inner.length + m.outer.length ≤ 6) := by
  unfold BinnedIndex.make0 at h
  cases h1 : flattenDims (k : Int) ndimOpMax (readDims inner (fun i => ((ops i).bins.map Prod.fst).getD [])) with
  | error e => rw [h1] at h; cases h
  | ok ins =>
    rw [h1] at h
    cases h2 : flattenDims 0 (ndimOpMax - ins.length) (readDims bins (fun i => (ops i).strides)) with
    | error e =>
      simp only [bind, Except.bind, h2] at h
      cases h
    | ok outs =>
      simp only [bind, Except.bind, h2, Except.ok.injEq] at h
      subst h
      have e1 := flattenLoopMI_length _ _ _ _ h1 (Nat.zero_le _)
      have e2 := flattenLoopMI_length _ _ _ _ h2 (Nat.zero_le _)
      simp only [ndimOpMax] at e1 e2
      dsimp only
      by_cases ho : outs = []
      · simp [ho]; omega
      · simp [ho]; omega

/-- **C13**, negation for scalars whose buffer has six dims (none of which can be flattened): `increment_bins` reads the strides of the
dim after the last one (`multi_index.h` 241-245 with `dim = m_inner_ndim = 6`). -/
theorem C13_wrong_for_scalar : ∃ (inner : Dims) (ops : Fin 1 → BinnedIndex.Operand) (m : BinnedIndex 1),
    BinnedIndex.make0 inner [] 5 ops = .ok m ∧ m.inner.length = 6 ∧ m.outer.length = 1 :=
  ⟨[(1, 2), (2, 2), (3, 2), (4, 2), (5, 2), (6, 2)], fun _ => ⟨[], some ([32, 16, 8, 4, 2, 1], fun _ => (0, 2))⟩, _, rfl,
    rfl, rfl⟩

/-- Six dims in total are supported, seven are not. -/
example : (∃ m, BinnedIndex.make0 [(1, 2), (2, 2)] [(3, 2), (4, 2), (5, 2), (6, 2)] 1
      (fun _ : Fin 1 => ⟨[1, 2, 4, 8], some ([1, 2], fun _ => (0, 2))⟩) = .ok m ∧ m.inner.length + m.outer.length = 6) ∧
    (BinnedIndex.make0 [(1, 2), (2, 2), (7, 2)] [(3, 2), (4, 2), (5, 2), (6, 2)] 2
      (fun _ : Fin 1 => ⟨[1, 2, 4, 8], some ([1, 2, 4], fun _ => (0, 2))⟩)).isOk = false :=
  ⟨⟨_, rfl, rfl⟩, by decide⟩

end Scipp.Props
