import Verif.Lemmas.MultiIndex
/-!
Properties C11 (simultaneous iteration).
-/
namespace Scipp.Props
open Scipp Sizes
variable {N : Nat}

/-- The calls an elementwise operation must make for the row-major positions `b ≤ k < e` of
the output: for each position, each operand's element at the coordinates with that
position. -/
def wantedCalls (dims : Dims) (strides : Fin N → List Int) (b e : Int) : List (Vec N) :=
  (List.range (e - b).toNat).map (fun (j : Nat) => fun i => addrAux dims (strides i) (coordsOf dims (b + j)))

/-- **C11**: the claim in full is false. There are operands (a variable broadcast along its
second-innermost dim, as the only operand) for which other elements are visited: in a
variable of three dims with all operands broadcast in the middle one the
iteration leaves the buffer. -/
theorem C11_wrong_when_all_broadcast : ∃ (dims : Dims) (strides : Fin 1 → List Int) (m : MultiIndex 1),
    Sizes.WF dims ∧ (∀ i, (strides i).length = dims.length) ∧
    MultiIndex.make dims strides = .ok m ∧
    m.runBlock 30 0 (Dims.volume dims) ≠ some (wantedCalls dims strides 0 (Dims.volume dims)) ∧
    -- the view covers 8 elements (addresses 0 to 7), the iteration visits address 11
    (∀ c, InDims dims c → addrAux dims (strides 0) c < 8) ∧
    ∃ calls, m.runBlock 30 0 (Dims.volume dims) = some calls ∧ (fun _ => 11) ∈ calls := by
  refine ⟨[(2, 2), (3, 3), (4, 4)], fun _ => [4, 0, 1],
    ⟨0, [(12, fun _ => 1), (2, fun _ => 4)], [0, 0]⟩, by simp [Sizes.WF], by simp, by decide, by decide, ?_,
    ((List.range 12).map (fun (j : Nat) => fun _ => (j : Int))) ++
      ((List.range 12).map (fun (j : Nat) => fun _ => (j : Int) + 4)), by decide, by decide⟩
  intro c hc
  have h1 := hc 2 2 (by simp)
  have h2 := hc 4 4 (by simp)
  simp [addrAux]
  omega

/-- **C11** (every block, any operands): a block `[b, e)` of the output range calls the
operation once per position, in order, with the elements of all operands at the coordinates
of that position, unless the dims show the pattern excluded by `NoZeroRun`. -/
theorem C11_block_partial (dims : Dims) (strides : Fin N → List Int) (m : MultiIndex N) (b e : Int)
    (hw : Sizes.WF dims) (hl : ∀ i, (strides i).length = dims.length)
    (h : MultiIndex.make dims strides = .ok m) (hz : NoZeroRun 1 (readDims dims strides).reverse)
    (h0 : 0 ≤ b) (hbe : b ≤ e) (hev : e ≤ Dims.volume dims) (fuel : Nat) (hf : e - b < fuel) :
    m.runBlock fuel b e = some (wantedCalls dims strides b e) := by
  by_cases hlt : b = e
  · subst hlt
    cases fuel with
    | zero => simp at hf
    | succ fuel => simp [MultiIndex.runBlock, MultiIndex.run, wantedCalls]
  have hpos : ∀ p ∈ dims, 0 < p.2 := allPos_of_lt hw.2 h0 (by omega)
  by_cases hd : dims = []
  · subst hd
    simp at hev
    obtain ⟨rfl, rfl⟩ : b = 0 ∧ e = 1 := by omega
    have hm : m = ⟨0, [(0, 0)], [0]⟩ := by
      simp [MultiIndex.make, readDims, flattenDims, flattenLoopMI, bind, Except.bind] at h
      exact h.symm
    subst hm
    obtain ⟨fuel, rfl⟩ : ∃ g, fuel = g + 2 := ⟨fuel - 2, by omega⟩
    simp [MultiIndex.runBlock, MultiIndex.run, MultiIndex.setIndex, extractIndices, dimSizes, flatVec,
      MultiIndex.innerSize, MultiIndex.incrementBy, incInDims, MultiIndex.innerLoop, wantedCalls, addrAux]
    rfl
  · obtain ⟨ds, hds, hm⟩ : ∃ ds, flattenDims 0 ndimOpMax (readDims dims strides) = .ok ds ∧
        m = ⟨0, if ds = [] then [(0, 0)] else ds, (if ds = [] then [(0, 0)] else ds).map (fun _ => 0)⟩ := by
      simp only [MultiIndex.make, bind, Except.bind] at h
      split at h
      · simp at h
      · rename_i ds hds
        refine ⟨ds, hds, ?_⟩
        injection h with h
        exact h.symm
    obtain ⟨q, R, hR⟩ : ∃ q R, readDims dims strides = q :: R := by
      cases hx : readDims dims strides with
      | nil =>
        have := readDims_length dims strides
        rw [hx] at this
        exact absurd (List.length_eq_zero_iff.1 this.symm) hd
      | cons q R => exact ⟨q, R, rfl⟩
    have hall := readDims_allPos (strides := strides) hpos
    rw [hR] at hall hz hds
    obtain ⟨X, hX, _, hsame⟩ := flattenDims_spec (K := [q]) (R := R) (by simp) hall.tail (by simpa using hz) hds
    have hq1 : AllPos [q] := by intro p hp; simp at hp; subst hp; exact hall.head
    have hRr : AllPos R.reverse := fun p hp => hall.tail p (by simpa using hp)
    have hs := hsame.append hRr hq1
    simp only [List.reverse_cons, List.reverse_nil, List.nil_append] at hX
    rw [← hX] at hs
    have hne : ds ≠ [] := by rw [hX]; simp
    rw [if_neg hne] at hm
    have hfull : R.reverse ++ [q] = (readDims dims strides).reverse := by rw [hR]; simp
    rw [hfull] at hs
    obtain ⟨p, L, hpL⟩ : ∃ p L, ds = p :: L := by
      cases ds with
      | nil => exact absurd rfl hne
      | cons p L => exact ⟨p, L, rfl⟩
    subst hpL
    have hvol : fvol (p :: L) = Dims.volume dims := by rw [hs.vol, fvol_readDims]
    have hmd : m.dims = p :: L := by rw [hm]
    have := run_spec hs.pos (MInv.setIndex hmd e) (by rw [hvol]; exact hev) fuel b _ (MInv.setIndex hmd b) h0 hbe hf
    rw [MultiIndex.runBlock, this]
    simp only [wantedCalls, Option.some.injEq]
    apply List.map_congr_left
    intro j hj
    simp only [List.mem_range] at hj
    rw [hs.mem _ (by omega), memAt_readDims hw hl (by omega) (by omega)]

/-- The hypotheses hold for a pair of operands broadcast in different dims. -/
example : ∃ m, MultiIndex.make [(2, 2), (3, 3)] (fun i : Fin 2 => if i = 0 then [1, 0] else [3, 1]) = .ok m ∧
    m.runBlock 5 2 6 = some (wantedCalls [(2, 2), (3, 3)] (fun i : Fin 2 => if i = 0 then [1, 0] else [3, 1]) 2 6) :=
  ⟨_, rfl, C11_block_partial [(2, 2), (3, 3)] (fun i : Fin 2 => if i = 0 then [1, 0] else [3, 1]) _ 2 6 (by simp [Sizes.WF])
    (by decide) rfl (.inr (by simp)) (by decide) (by decide) (by decide) 5 (by decide)⟩

/-- **C11** (operations creating a new variable): with the row-major output as first
operand, every block is right whatever the strides of the other operands. -/
theorem C11_block_new_output (dims : Dims) (inputs : Fin N → List Int) (m : MultiIndex (N + 1)) (b e : Int)
    (hw : Sizes.WF dims) (hl : ∀ i, (inputs i).length = dims.length)
    (h : MultiIndex.make dims (Fin.cons (rowMajor (shape dims)) inputs) = .ok m)
    (h0 : 0 ≤ b) (hbe : b ≤ e) (hev : e ≤ Dims.volume dims) (fuel : Nat) (hf : e - b < fuel) :
    m.runBlock fuel b e = some (wantedCalls dims (Fin.cons (rowMajor (shape dims)) inputs) b e) := by
  by_cases hlt : b = e
  · subst hlt
    cases fuel with
    | zero => simp at hf
    | succ fuel => simp [MultiIndex.runBlock, MultiIndex.run, wantedCalls]
  have hpos : ∀ p ∈ dims, 0 < p.2 := allPos_of_lt hw.2 h0 (by omega)
  refine C11_block_partial dims _ m b e hw ?_ h ?_ h0 hbe hev fuel hf
  · intro i
    refine Fin.cases ?_ (fun j => ?_) i
    · simp
    · simpa using hl j
  · -- the output's strides are positive
    have hst : ∀ q ∈ readDims dims (Fin.cons (rowMajor (shape dims)) inputs : Fin (N + 1) → List Int), q.2 0 ≠ 0 := by
      intro q hq
      have h1 : (q.1, q.2 0) ∈ (shape dims).zip (rowMajor (shape dims)) := by
        have := readDims_map 0 dims (Fin.cons (rowMajor (shape dims)) inputs : Fin (N + 1) → List Int) (by simp)
        simp only [Fin.cons_zero] at this
        rw [← this]
        exact List.mem_map.2 ⟨q, hq, rfl⟩
      have h2 := (List.of_mem_zip h1).2
      have := (rowMajor_pos (shape dims) (by
        intro x hx
        simp only [shape, List.mem_map] at hx
        obtain ⟨p, hp, rfl⟩ := hx
        exact hpos p hp)).2 _ h2
      omega
    generalize readDims dims (Fin.cons (rowMajor (shape dims)) inputs : Fin (N + 1) → List Int) = F at hst
    cases hF : F.reverse with
    | nil => trivial
    | cons p rest =>
      right
      intro q hq
      exfalso
      have hm : q ∈ rest := List.mem_of_mem_take ((List.takeWhile_sublist _).subset hq)
      have hz := List.all_takeWhile (p := fun q : Int × Vec (N + 1) => decide (q.2 = 0)) (l := rest.take (rest.length - 1))
      have := List.all_eq_true.1 hz q hq
      simp only [decide_eq_true_eq] at this
      have hmem : q ∈ F := by
        have : q ∈ F.reverse := by rw [hF]; exact List.mem_cons_of_mem _ hm
        simpa using this
      exact hst q hmem (by rw [this]; rfl)

/-- No condition on the inputs: both are broadcast in the same dim, the second-innermost one. -/
example : ∃ m, MultiIndex.make [(2, 2), (3, 3), (4, 2)] (Fin.cons (rowMajor [2, 3, 2]) (fun _ : Fin 2 => [2, 0, 1])) = .ok m ∧
    m.runBlock 11 1 11 = some (wantedCalls [(2, 2), (3, 3), (4, 2)] (Fin.cons (rowMajor [2, 3, 2]) (fun _ : Fin 2 => [2, 0, 1])) 1 11) :=
  ⟨_, rfl, C11_block_new_output [(2, 2), (3, 3), (4, 2)] (fun _ : Fin 2 => [2, 0, 1]) _ 1 11 (by simp [Sizes.WF])
    (by decide) rfl (by decide) (by decide) (by decide) 11 (by decide)⟩

/-- Output, a transposed and a broadcast operand; the block `[1, 5)`. -/
example : (do
    let m ← MultiIndex.make [(2, 2), (3, 3)] (Fin.cons (rowMajor [2, 3]) (fun i : Fin 2 => if i = 0 then [1, 2] else [1, 0]))
    return (m.runBlock 10 1 5).map (·.map (fun v => [v 0, v 1, v 2]))) =
    (.ok (some [[1, 2, 0], [2, 4, 0], [3, 1, 1], [4, 3, 1]]) : Except Err _) := by decide

/-- `C11_block_partial` in a case with a reduction: the first operand (the sum over the
second dim) has stride zero in it, the block starts in the middle of a row. -/
example : NoZeroRun 1 (readDims [(2, 2), (3, 3)] (fun i : Fin 2 => if i = 0 then [1, 0] else [3, 1])).reverse ∧
    (do
    let m ← MultiIndex.make [(2, 2), (3, 3)] (fun i : Fin 2 => if i = 0 then [1, 0] else [3, 1])
    return (m.runBlock 10 2 6).map (·.map (fun v => [v 0, v 1]))) =
    (.ok (some [[0, 2], [1, 3], [1, 4], [1, 5]]) : Except Err _) := by
  refine ⟨.inr (by simp), by decide⟩

/-- `flatten_dims` writes at most `cap` entries. -/
theorem flattenLoopMI_length {nf : Int} {cap : Nat} : ∀ (l : List (Int × Vec N)) (sfc : Vec N) (out r : List (Int × Vec N)),
    flattenLoopMI nf cap l sfc out = .ok r → out.length ≤ cap → r.length ≤ cap
  | [], _, out, r, h, hl => by
    simp only [flattenLoopMI, Except.ok.injEq] at h
    subst h
    simpa using hl
  | (size, st) :: rest, sfc, out, r, h, hl => by
    unfold flattenLoopMI at h
    split at h
    · cases h
    · rename_i hc
      have hc' : out.length + 1 ≤ cap := by omega
      split at h
      · split at h
        · exact flattenLoopMI_length rest _ _ r h (by simpa using hc')
        · rename_i e out'
          split at h
          · exact flattenLoopMI_length rest _ _ r h (by simpa using hl)
          · exact flattenLoopMI_length rest _ _ r h (by simpa using hc')
      · exact flattenLoopMI_length rest _ _ r h (by simpa using hc')

/-- **C11**, memory safety of the constructor: it writes no more dims than the arrays of the index hold (`NDIM_OP_MAX = 6`); operands
with more dims are rejected, unless dims could be flattened before. -/
theorem C11_within_arrays (dims : Dims) (strides : Fin N → List Int) (m : MultiIndex N)
    (h : MultiIndex.make dims strides = .ok m) : m.dims.length ≤ 6 ∧ m.coord.length = m.dims.length := by
  unfold MultiIndex.make at h
  cases hf : flattenDims 0 ndimOpMax (readDims dims strides) with
  | error e => rw [hf] at h; cases h
  | ok ds =>
    rw [hf] at h
    cases h
    have := flattenLoopMI_length _ _ _ _ hf (Nat.zero_le _)
    simp only [List.length_map, and_true]
    split
    · simp
    · exact this

/-- Seven dims of which no two can be flattened, and seven of which two can. -/
example : MultiIndex.make [(1, 2), (2, 2), (3, 2), (4, 2), (5, 2), (6, 2), (7, 2)] (fun _ : Fin 1 => [1, 2, 4, 8, 16, 32, 64]) = .error .runtime ∧
    ∃ m, MultiIndex.make [(1, 2), (2, 2), (3, 2), (4, 2), (5, 2), (6, 2), (7, 2)] (fun _ : Fin 1 => [64, 32, 16, 8, 4, 2, 1]) = .ok m :=
  ⟨by decide, _, rfl⟩

end Scipp.Props
