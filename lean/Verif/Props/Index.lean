import Verif.Lemmas.Index
/-!
Properties C09 (iteration over a view), C10 (flat index and coordinates).
-/
namespace Scipp.Props
open Scipp Sizes

/-! ## C10 flat index and coordinates -/

/-- **C10** (decompose what was composed): extracting from the row-major position of
coordinates within the extents gives back the coordinates (fastest dim first). -/
theorem C10_extract_position (dims : Dims) (hne : dims ≠ []) : ∀ (c : Dim → Int), InDims dims c →
    extractIndices (position dims c) (shape dims).reverse = ((labels dims).map c).reverse := by
  induction dims using List.reverseRecOn with
  | nil => exact absurd rfl hne
  | append_singleton ds p ih =>
    intro c hc
    have hp := hc p.1 p.2 (by simp)
    rw [position_concat]
    simp only [shape_append, shape_cons, shape_nil, List.reverse_append, List.reverse_cons, List.reverse_nil,
      List.nil_append, List.singleton_append, labels_append, labels_cons, labels_nil, List.map_append, List.map_cons,
      List.map_nil]
    cases hds : ds using List.reverseRecOn with
    | nil => simp [extractIndices]
    | append_singleton ds' q =>
      rw [← hds]
      have hne' : ds ≠ [] := by rw [hds]; simp
      have hb := position_bounds hc.append_left
      have hs : (shape ds).reverse = q.2 :: (shape ds').reverse := by rw [hds]; simp
      rw [hs, extract_cons2 (by nlinarith [hb.1, hp.1, hp.2]) (by omega), ← hs]
      have e1 : (position ds c * p.2 + c p.1) % p.2 = c p.1 := by
        rw [Int.add_comm, Int.add_mul_emod_self_right, Int.emod_eq_of_lt hp.1 hp.2]
      have e2 : (position ds c * p.2 + c p.1) / p.2 = position ds c := by
        rw [Int.add_comm, Int.add_mul_ediv_right _ _ (by omega), Int.ediv_eq_zero_of_lt hp.1 hp.2]
        simp
      rw [e1, e2, ih hne' c hc.append_left]

example := C10_extract_position [(2, 2), (3, 3), (4, 4)] (by decide) (fun d => if d = 4 then 3 else 1)
  (by intro d n h; simp at h; rcases h with ⟨rfl, rfl⟩ | ⟨rfl, rfl⟩ | ⟨rfl, rfl⟩ <;> decide)

/-- **C10** (compose what was decomposed): for every index below the volume the extracted
coordinates are within the extents, and combining them with the row-major strides gives the
index back. -/
theorem C10_compose_extract (dims : Dims) (hw : Sizes.WF dims) (hne : dims ≠ []) (k : Int) (h0 : 0 ≤ k)
    (h1 : k < Dims.volume dims) :
    flatIndex (rowMajor (shape dims)) (extractIndices k (shape dims).reverse).reverse = k ∧
    ∃ c, InDims dims c ∧ position dims c = k ∧
      (extractIndices k (shape dims).reverse).reverse = (labels dims).map c := by
  have hi := coordsOf_inDims hw h0 h1
  have hp := position_coordsOf hw h0 h1
  have he := C10_extract_position dims hne _ hi
  rw [hp] at he
  refine ⟨?_, _, hi, hp, by rw [he, List.reverse_reverse]⟩
  rw [he, List.reverse_reverse]
  have : ∀ (s : Dims) (st : List Int) (c : Dim → Int), st.length = s.length →
      flatIndex st ((labels s).map c) = addrAux s st c := by
    intro s
    induction s with
    | nil => intro st c h; cases st <;> simp [flatIndex]
    | cons q s ih =>
      intro st c h
      cases st with
      | nil => simp at h
      | cons x st =>
        simp only [labels_cons, List.map_cons, flatIndex, addrAux_cons]
        rw [ih st c (by simpa using h), Int.mul_comm]
  rw [this _ _ _ (by simp)]
  have h2 := fresh_addr dims (coordsOf dims k)
  simp only [View.addr, View.fresh, Int.zero_add] at h2
  rw [h2, hp]

example := C10_compose_extract [(2, 2), (3, 3), (4, 4)] (by simp [Sizes.WF]) (by decide) 17 (by decide) (by decide)

/-- **C10** (injectivity): distinct indices give distinct coordinates. -/
theorem C10_extract_injective (dims : Dims) (hw : Sizes.WF dims) (k k' : Int) (h0 : 0 ≤ k)
    (h1 : k < Dims.volume dims) (h0' : 0 ≤ k') (h1' : k' < Dims.volume dims)
    (h : extractIndices k (shape dims).reverse = extractIndices k' (shape dims).reverse) : k = k' := by
  by_cases hne : dims = []
  · subst hne; simp [extractIndices] at h; exact h
  · have a := (C10_compose_extract dims hw hne k h0 h1).1
    have b := (C10_compose_extract dims hw hne k' h0' h1').1
    rw [h] at a
    exact a.symm.trans b

/-- Different positions have different coordinates. -/
example : extractIndices 17 (shape [(2, 2), (3, 3), (4, 4)]).reverse ≠ extractIndices 18 (shape [(2, 2), (3, 3), (4, 4)]).reverse :=
  fun h => absurd (C10_extract_injective [(2, 2), (3, 3), (4, 4)] (by simp [Sizes.WF]) 17 18 (by decide) (by decide) (by decide)
    (by decide) h) (by decide)

/-- **C10** (end position): the index one past the end gives all coordinates 0 except the
slowest, which is its extent. -/
theorem C10_extract_end (s : Int) (ss : List Int) (hs : ∀ x ∈ ss, 0 < x) :
    extractIndices (ss.foldr (· * ·) s) (ss ++ [s]) = List.replicate ss.length 0 ++ [s] := by
  induction ss with
  | nil => simp [extractIndices]
  | cons x ss ih =>
    have hx := hs x (by simp)
    have e : ∃ y ys, ss ++ [s] = y :: ys := by cases ss <;> simp
    obtain ⟨y, ys, hy⟩ := e
    simp only [List.foldr_cons, List.cons_append, List.length_cons, List.replicate_succ]
    rw [hy]
    simp only [extractIndices]
    rw [if_pos (by omega), Int.mul_tdiv_cancel_left _ (by omega), ← hy, ih (fun z hz => hs z (List.mem_cons_of_mem _ hz))]
    simp [Int.mul_comm]

example := C10_extract_end 2 [4, 3] (by decide)

example : extractIndices 17 (shape [(2, 2), (3, 3), (4, 4)]).reverse = [1, 1, 1] ∧
    flatIndex (rowMajor (shape [(2, 2), (3, 3), (4, 4)])) [1, 1, 1] = 17 := by decide
example : extractIndices 24 [4, 3, 2] = [0, 0, 2] := by decide

/-! ## C09 iteration over a view -/

/-- Position of an iterator after a step. -/
def stepTarget (k : Int) : IterOp → Int
  | .inc => k + 1
  | .dec => k - 1
  | .adv d => k + d

/-- All positions visited stay between begin and end. -/
def StepsInRange (n : Int) : Int → List IterOp → Prop
  | k, [] => 0 ≤ k ∧ k ≤ n
  | k, op :: ops => (0 ≤ k ∧ k ≤ n) ∧ StepsInRange n (stepTarget k op) ops

/-- Views with up to six dimensions can be iterated. -/
theorem C09_iterator_exists (dims : Dims) (strides : List Int) (k : Int) (h : dims.length ≤ 6) :
    ∃ v, iterAt dims strides k = .ok v := by
  obtain ⟨ds, hds⟩ := viewIndexLoop_ok ((shape dims).zip strides).reverse 0 [] (by
    simp [ndimOpMax]; omega) (fun _ => rfl)
  simp [iterAt, ViewIndex.make, hds, bind, Except.bind]

example := C09_iterator_exists [(2, 2), (3, 2), (4, 2)] [0, 2, 1] 5 (by decide)

/-- Beyond six dimensions that cannot be merged the constructor writes past the end of its
arrays. -/
theorem C09_seven_dims_undefined : ∃ dims strides, Sizes.WF dims ∧
    ViewIndex.make dims strides = .error .ub := by
  refine ⟨[(2, 2), (3, 2), (4, 2), (5, 2), (6, 2), (7, 2), (8, 2)], [1, 2, 4, 8, 16, 32, 64], ?_, by decide⟩
  simp [Sizes.WF]

/-- **C09** (random access): an iterator created at any position and moved by any
sequence of increments, decrements and jumps within the range refers to the element whose
coordinates have that row-major position. Any strides (zero, negative, transposed). -/
theorem C09_random_access (dims : Dims) (strides : List Int) (k : Int) (v : ViewIndex) (ops : List IterOp)
    (hw : Sizes.WF dims) (hl : strides.length = dims.length) (h : iterAt dims strides k = .ok v)
    (hops : StepsInRange (Dims.volume dims) k ops) :
    (ops.foldl IterOp.run v).index = ops.foldl stepTarget k ∧
    ∀ c, InDims dims c → position dims c = ops.foldl stepTarget k →
      (ops.foldl IterOp.run v).mem = addrAux dims strides c := by
  obtain ⟨ds, hlen, hinv, hidx, hfp, hpos⟩ := iterAt_inv hw hl h
  have hfinal : ∀ (w : ViewIndex), VInv ds w → ∀ c, InDims dims c → position dims c = w.index →
      w.mem = addrAux dims strides c := by
    intro w hwi c hc hp
    have hb := position_bounds hc
    have hv : 0 < Dims.volume dims := by omega
    obtain ⟨_, _, e3, e4⟩ := hpos hv
    have := (hwi.at_ (by omega) (by rw [e3]; omega)).2
    rw [this, e4 _ (by omega), ← hp, memAt_addr dims strides hl c hc]
  have hrun : ∀ (ops : List IterOp) (j : Int) (w : ViewIndex), VInv ds w → w.index = j →
      StepsInRange (Dims.volume dims) j ops →
      VInv ds (ops.foldl IterOp.run w) ∧ (ops.foldl IterOp.run w).index = ops.foldl stepTarget j := by
    intro ops
    induction ops with
    | nil => intro j w hw hj _; exact ⟨hw, hj⟩
    | cons op ops ih =>
      intro j w hwi hj hr
      have hr2 : 0 ≤ stepTarget j op ∧ stepTarget j op ≤ Dims.volume dims := by
        have := hr.2
        cases ops with
        | nil => exact this
        | cons _ _ => exact this.1
      have hstep : VInv ds (IterOp.run w op) ∧ (IterOp.run w op).index = stepTarget j op := by
        have hset : ∀ t, VInv ds (w.setIndex t) ∧ (w.setIndex t).index = t := by
          intro t
          exact setIndex_inv hwi hlen hfp t
        have hinc : stepTarget j .inc ≤ Dims.volume dims → VInv ds w.increment ∧ w.increment.index = j + 1 := by
          intro hle
          simp only [stepTarget] at hle
          have hv : 0 < Dims.volume dims := by have := hr.1.1; omega
          obtain ⟨e1, e2, e3, _⟩ := hpos hv
          have := increment_inv hwi e1 (fun _ => e2) (by rw [hj]; exact hr.1.1) (by rw [hj, e3]; omega)
          rw [hj] at this
          exact this
        cases op with
        | inc => exact hinc hr2.2
        | dec =>
          have := hset (w.index - 1)
          rw [hj] at this
          simpa [IterOp.run, stepTarget, hj] using this
        | adv d =>
          simp only [IterOp.run, stepTarget]
          split
          · rename_i hd
            subst hd
            exact hinc hr2.2
          · have := hset (w.index + d)
            rw [hj] at this
            rw [hj]; exact this
      exact ih _ _ hstep.1 hstep.2 hr.2
  obtain ⟨a, b⟩ := hrun ops k v hinv hidx hops
  exact ⟨b, fun c hc hp => hfinal _ a c hc (hp.trans b.symm)⟩

/-- An iterator created at position 2 of a transposed view and moved to position 3 in several steps. -/
example : ∃ v, iterAt [(2, 2), (3, 3)] [1, 4] 2 = .ok v ∧
    ([.adv 3, .dec, .adv (-4), .inc, .adv 2].foldl IterOp.run v).index = 3 := by
  obtain ⟨v, hv⟩ := C09_iterator_exists [(2, 2), (3, 3)] [1, 4] 2 (by decide)
  exact ⟨v, hv, (C09_random_access [(2, 2), (3, 3)] [1, 4] 2 v [.adv 3, .dec, .adv (-4), .inc, .adv 2] (by simp [Sizes.WF]) rfl hv
    (by simp [StepsInRange, stepTarget, Dims.volume, shape])).1⟩

/-- **C09** (complete, row-major): iterating from position `k` to the end visits, in order,
the elements at row-major positions `k, k+1, ..., n-1`, each exactly once. -/
theorem C09_iteration (dims : Dims) (strides : List Int) (k : Int) (v e : ViewIndex)
    (hw : Sizes.WF dims) (hl : strides.length = dims.length) (h0 : 0 ≤ k) (hk : k ≤ Dims.volume dims)
    (h : iterAt dims strides k = .ok v) (he : iterAt dims strides (Dims.volume dims) = .ok e)
    (fuel : Nat) (hf : Dims.volume dims - k < fuel) :
    collect fuel v e = some ((List.range (Dims.volume dims - k).toNat).map
      (fun (i : Nat) => addrAux dims strides (coordsOf dims (k + i)))) := by
  obtain ⟨_, _, _, hei, _, _⟩ := iterAt_inv hw hl he
  have main : ∀ (fuel i : Nat), k + i ≤ Dims.volume dims → Dims.volume dims - (k + i) < fuel →
      collect fuel ((List.replicate i IterOp.inc).foldl IterOp.run v) e =
      some ((List.range (Dims.volume dims - (k + i)).toNat).map
        (fun (m : Nat) => addrAux dims strides (coordsOf dims (k + i + m)))) := by
    intro fuel
    induction fuel with
    | zero => intro i h1 h2; simp at h2; omega
    | succ fuel ih =>
      intro i h1 h2
      have tgt : ∀ (i : Nat) (j : Int), (List.replicate i IterOp.inc).foldl stepTarget j = j + i := by
        intro i
        induction i with
        | zero => intro j; simp
        | succ i ih => intro j; simp only [List.replicate_succ, List.foldl_cons, ih, stepTarget]; push_cast; ring
      have rng : ∀ (i : Nat) (j : Int), 0 ≤ j → j + i ≤ Dims.volume dims →
          StepsInRange (Dims.volume dims) j (List.replicate i IterOp.inc) := by
        intro i
        induction i with
        | zero => intro j h0 h1; exact ⟨h0, by simpa using h1⟩
        | succ i ih =>
          intro j h0 h1
          push_cast at h1
          refine ⟨⟨h0, by omega⟩, ih (j + 1) (by omega) (by omega)⟩
      obtain ⟨hx, hy⟩ := C09_random_access dims strides k v (List.replicate i IterOp.inc) hw hl h (rng i k h0 h1)
      rw [tgt] at hx hy
      simp only [collect, hx, hei]
      by_cases hend : k + i = Dims.volume dims
      · rw [if_pos hend]; simp [hend]
      · rw [if_neg hend]
        have hlt : k + i < Dims.volume dims := by omega
        have hs : ((List.replicate i IterOp.inc).foldl IterOp.run v).increment =
            (List.replicate (i + 1) IterOp.inc).foldl IterOp.run v := by
          rw [List.replicate_succ', List.foldl_append]; rfl
        rw [hs, ih (i + 1) (by push_cast; omega) (by push_cast; push_cast at h2; omega)]
        have hn : (Dims.volume dims - (k + i)).toNat = (Dims.volume dims - (k + ((i + 1 : Nat) : Int))).toNat + 1 := by
          push_cast; omega
        rw [hn, List.range_succ_eq_map]
        simp only [Option.map_some, List.map_cons, List.map_map]
        congr 1
        congr 1
        · rw [hy _ (coordsOf_inDims hw (by omega) hlt) (position_coordsOf hw (by omega) hlt)]
          simp
        · apply List.map_congr_left
          intro m _
          simp only [Function.comp_def]
          congr 2
          push_cast; ring
  have := main fuel 0 (by simpa using hk) (by simpa using hf)
  simpa using this

example : ∃ v e, iterAt [(2, 2), (3, 3)] [1, 4] 2 = .ok v ∧ iterAt [(2, 2), (3, 3)] [1, 4] 6 = .ok e ∧
    collect 7 v e = some ((List.range 4).map (fun i : Nat => addrAux [(2, 2), (3, 3)] [1, 4] (coordsOf [(2, 2), (3, 3)] (2 + i)))) := by
  obtain ⟨v, hv⟩ := C09_iterator_exists [(2, 2), (3, 3)] [1, 4] 2 (by decide)
  obtain ⟨e, he⟩ := C09_iterator_exists [(2, 2), (3, 3)] [1, 4] 6 (by decide)
  exact ⟨v, e, hv, he, C09_iteration [(2, 2), (3, 3)] [1, 4] 2 v e (by simp [Sizes.WF]) rfl (by decide) (by decide) hv he 7 (by decide)⟩

/-- A transposed, strided view, started at position 2 and at position 0. -/
example : (do
    let a ← iterAt [(2, 2), (3, 3)] [1, 4] 2
    let b ← iterAt [(2, 2), (3, 3)] [1, 4] 0
    let e ← iterAt [(2, 2), (3, 3)] [1, 4] 6
    return (collect 7 a e, collect 7 b e)) =
    (.ok (some [8, 1, 5, 9], some [0, 4, 8, 1, 5, 9]) : Except Err _) := by decide

/-- Contiguous dims are merged, a broadcast dim (stride 0) is not. -/
example : (do
    let a ← iterAt [(2, 2), (3, 2), (4, 2)] [0, 2, 1] 0
    let e ← iterAt [(2, 2), (3, 2), (4, 2)] [0, 2, 1] 8
    return (a.ndim, collect 9 a e)) =
    (.ok (2, some [0, 1, 2, 3, 0, 1, 2, 3]) : Except Err _) := by decide

example : StepsInRange 6 2 [.inc, .adv 3, .dec, .adv 1] := by
  simp [StepsInRange, stepTarget]

end Scipp.Props
