import Verif.Spec.MultiIndex
import Verif.Lemmas.Index
/-!
Lemmas on `MultiIndex` without bins.
-/
namespace Scipp
open Sizes
variable {N : Nat}

theorem flatVec_eq (L : List (Int × Vec N)) : ∀ cs, flatVec L cs = dot L cs := by
  induction L with
  | nil => intro cs; simp [flatVec, dot]
  | cons p L ih =>
    intro cs
    cases cs with
    | nil => simp [flatVec, dot]
    | cons c cs => simp [flatVec, dot, ih]

/-- `X` addresses memory like `Y`. -/
structure SameMem (X Y : List (Int × Vec N)) : Prop where
  pos : AllPos X
  vol : fvol X = fvol Y
  mem : ∀ k, 0 ≤ k → memAt X k = memAt Y k

theorem SameMem.refl {X : List (Int × Vec N)} (h : AllPos X) : SameMem X X := ⟨h, rfl, fun _ _ => rfl⟩

theorem SameMem.trans {X Y Z : List (Int × Vec N)} (h : SameMem X Y) (h' : SameMem Y Z) : SameMem X Z :=
  ⟨h.pos, h.vol.trans h'.vol, fun k hk => (h.mem k hk).trans (h'.mem k hk)⟩

theorem SameMem.append {X Y B : List (Int × Vec N)} (h : SameMem X Y) (hy : AllPos Y) (hb : AllPos B) :
    SameMem (X ++ B) (Y ++ B) :=
  ⟨h.pos.append hb, by rw [fvol_append, fvol_append, h.vol], fun k hk => by
    rw [memAt_append _ _ k hk h.pos, memAt_append _ _ k hk hy, h.mem k hk, h.vol]⟩

/-- Merging a dim of extent 1 and stride 0. -/
theorem memAt_merge_one (A B : List (Int × Vec N)) (s : Int) (st : Vec N) (k : Int) (hk : 0 ≤ k)
    (hA : AllPos A) : memAt (A ++ (s, st) :: (1, 0) :: B) k = memAt (A ++ (s, st) :: B) k := by
  rw [memAt_append _ _ k hk hA, memAt_append _ _ k hk hA]
  simp [memAt]

theorem AllPos.of_append_left {M : Type} {A B : List (Int × M)} (h : AllPos (A ++ B)) : AllPos A :=
  fun p hp => h p (List.mem_append_left _ hp)

theorem AllPos.of_append_right {M : Type} {A B : List (Int × M)} (h : AllPos (A ++ B)) : AllPos B :=
  fun p hp => h p (List.mem_append_right _ hp)

/-- Dims that must not be merged are appended. -/
theorem flattenLoop_keep {nf : Int} {cap : Nat} : ∀ (rest : List (Int × Vec N)) (sfc : Vec N)
    (out ds : List (Int × Vec N)), (rest.length : Int) ≤ nf + 1 →
    flattenLoopMI nf cap rest sfc out = .ok ds → ds = out.reverse ++ rest := by
  intro rest
  induction rest with
  | nil => intro sfc out ds _ h; simp only [flattenLoopMI] at h; injection h with h; simp [h]
  | cons p rest ih =>
    intro sfc out ds hl h
    obtain ⟨size, st⟩ := p
    simp only [flattenLoopMI] at h
    split at h
    · simp at h
    · rw [if_neg (by simp at hl; omega)] at h
      have := ih sfc _ ds (by simp at hl; omega) h
      rw [this]; simp

/-- Merging is right while the reference strides belong to the last written dim. -/
theorem flattenLoop_good {nf : Int} {cap : Nat} (R2 : List (Int × Vec N)) (h2 : (R2.length : Int) = nf + 1) :
    ∀ (R1 : List (Int × Vec N)) (sfc : Vec N) (e : Int × Vec N) (out ds : List (Int × Vec N)),
    sfc = e.1 • e.2 → AllPos ((e :: out).reverse ++ R1) →
    flattenLoopMI nf cap (R1 ++ R2) sfc (e :: out) = .ok ds →
    ∃ X, ds = X ++ R2 ∧ X ≠ [] ∧ SameMem X ((e :: out).reverse ++ R1) := by
  intro R1
  induction R1 with
  | nil =>
    intro sfc e out ds _ hp h
    have := flattenLoop_keep _ _ _ _ (by simp; omega) h
    simp only [List.nil_append] at this
    exact ⟨(e :: out).reverse, this, by simp, by simpa using SameMem.refl (by simpa using hp)⟩
  | cons p R1 ih =>
    intro sfc e out ds hs hp h
    obtain ⟨size, st⟩ := p
    have hout : AllPos out.reverse := by
      intro q hq; exact hp q (by simp; left; simpa using hq)
    have he : 0 < e.1 := hp e (by simp)
    have hsz : 0 < size := hp (size, st) (by simp)
    have hR1 : AllPos R1 := by intro q hq; exact hp q (by simp [hq])
    simp only [List.cons_append, flattenLoopMI] at h
    split at h
    · simp at h
    · rw [if_pos (by simp; omega)] at h
      split at h
      · rename_i hst
        have hp' : AllPos (((e.1 * size, e.2) :: out).reverse ++ R1) := by
          simp only [List.reverse_cons]
          refine ((hout.append ?_).append hR1)
          intro q hq; simp at hq; subst hq; exact Int.mul_pos he hsz
        obtain ⟨X, hX, hne, hsame⟩ := ih (size • st) (e.1 * size, e.2) out ds (by
          rw [hst, hs, smul_smul, Int.mul_comm]) hp' h
        refine ⟨X, hX, hne, hsame.trans ⟨hp', ?_, fun k hk => ?_⟩⟩
        · simp only [List.reverse_cons, fvol_append, fvol, List.append_assoc, List.singleton_append]; ring
        · simp only [List.reverse_cons, List.append_assoc, List.singleton_append]
          rw [hst, hs]
          exact (memAt_merge_mid _ _ _ _ _ _ hk hout he hsz).symm
      · obtain ⟨X, hX, hne, hsame⟩ := ih (size • st) (size, st) (e :: out) ds rfl (by
          simpa using hp) h
        exact ⟨X, hX, hne, by simpa using hsame⟩

/-- The first dims after the innermost, with reference strides still zero. -/
theorem flattenLoop_start {nf : Int} {cap : Nat} (R2 : List (Int × Vec N)) (h2 : (R2.length : Int) = nf + 1) :
    ∀ (R1 : List (Int × Vec N)) (e : Int × Vec N) (ds : List (Int × Vec N)),
    (e.2 = 0 ∨ ∀ q ∈ R1.takeWhile (fun q => q.2 = 0), q.1 = 1) → AllPos (e :: R1) →
    flattenLoopMI nf cap (R1 ++ R2) 0 [e] = .ok ds →
    ∃ X, ds = X ++ R2 ∧ X ≠ [] ∧ SameMem X (e :: R1) := by
  intro R1 e ds hz hp h
  by_cases he : e.2 = 0
  · obtain ⟨X, a, b, c⟩ := flattenLoop_good R2 h2 R1 0 e [] ds (by rw [he]; simp) (by simpa using hp) h
    exact ⟨X, a, b, by simpa using c⟩
  · replace hz := hz.resolve_left he
    induction R1 generalizing e with
    | nil =>
      have := flattenLoop_keep _ _ _ _ (by simp; omega) h
      simp only [List.nil_append] at this
      exact ⟨[e], this, by simp, SameMem.refl hp⟩
    | cons p R1 ih =>
      obtain ⟨size, st⟩ := p
      have hR1 : AllPos R1 := hp.tail.tail
      simp only [List.cons_append, flattenLoopMI] at h
      split at h
      · simp at h
      · rw [if_pos (by simp; omega)] at h
        split at h
        · rename_i hst
          subst hst
          have hs1 : size = 1 := hz (size, 0) (by simp [List.takeWhile_cons])
          subst hs1
          simp only [smul_zero, Int.mul_one] at h
          obtain ⟨X, a, b, c⟩ := ih e (fun p hp' => by
            rcases List.mem_cons.1 hp' with rfl | hp'
            · exact hp.head
            · exact hR1 p hp') h he (fun q hq => hz q (by simp [List.takeWhile_cons, hq]))
          refine ⟨X, a, b, c.trans ⟨fun p hp' => by
            rcases List.mem_cons.1 hp' with rfl | hp'
            · exact hp.head
            · exact hR1 p hp', by simp [fvol], fun k hk => ?_⟩⟩
          have := memAt_merge_one [] R1 e.1 e.2 k hk (by intro q hq; simp at hq)
          exact this.symm
        · obtain ⟨X, a, b, c⟩ := flattenLoop_good R2 h2 R1 (size • st) (size, st) [e] ds rfl (by
            simpa using hp) h
          exact ⟨X, a, b, by simpa using c⟩

/-- `flatten_dims` keeps the addressing, given `NoZeroRun`. `R` are the dims read first
(mergeable), `K` the others. -/
theorem flattenDims_spec {nf : Int} {cap : Nat} {K R ds : List (Int × Vec N)} (hk : (K.length : Int) = nf + 1)
    (hR : AllPos R) (hz : NoZeroRun K.length (R.reverse ++ K.reverse))
    (h : flattenDims nf cap (K ++ R) = .ok ds) :
    ∃ X, ds = X ++ K.reverse ∧ (R ≠ [] → X ≠ []) ∧ SameMem X R.reverse := by
  have hRr : AllPos R.reverse := fun p hp => hR p (by simpa using hp)
  simp only [flattenDims, List.reverse_append] at h
  generalize hF : R.reverse = F at *
  have hK : (K.reverse.length : Int) = nf + 1 := by simpa using hk
  cases F with
  | nil =>
    have := flattenLoop_keep _ _ _ _ (by simp; omega) h
    have hR0 : R = [] := by simpa using hF
    exact ⟨[], by simpa using this, by simp [hR0], SameMem.refl hRr⟩
  | cons p F =>
    obtain ⟨size, st⟩ := p
    simp only [List.cons_append, flattenLoopMI] at h
    split at h
    · simp at h
    · have hlt : ((F ++ K.reverse).length : Int) > nf := by simp; omega
      rw [if_pos hlt] at h
      obtain ⟨X, a, b, c⟩ := flattenLoop_start K.reverse hK F (size, st) ds (by
        simp only [List.cons_append, NoZeroRun] at hz
        rcases hz with hz | hz
        · exact .inl hz
        · right
          have : (F ++ K.reverse).take ((F ++ K.reverse).length - K.length) = F := by
            simp
          rw [this] at hz
          exact hz) hRr h
      exact ⟨X, a, fun _ => b, c⟩

/-! ### Coordinates -/

theorem dimSizes_eq (L : List (Int × Vec N)) : dimSizes L = sizesOf L := rfl

/-- Stepping in the first coordinate and carrying gives the coordinates of `k + m`. -/
theorem incInDims_coord : ∀ (L : List (Int × Vec N)) (p : Int × Vec N) (k m : Int) (data : Vec N) (c : Int) (cs : List Int),
    AllPos (p :: L) → 0 ≤ k → 0 ≤ m → (L ≠ [] → c + m ≤ p.1) →
    extractIndices k (dimSizes (p :: L)) = c :: cs →
    (incInDims (p :: L) ((c + m) :: cs) data).1 = extractIndices (k + m) (dimSizes (p :: L)) := by
  intro L
  induction L with
  | nil =>
    intro p k m data c cs hp hk hm _ hc
    simp only [dimSizes, List.map_cons, List.map_nil, extractIndices] at hc ⊢
    injection hc with h1 h2
    subst h1; subst h2
    simp [incInDims]
  | cons q L ih =>
    intro p k m data c cs hp hk hm hcm hc
    obtain ⟨s, st⟩ := p
    obtain ⟨s', st'⟩ := q
    have hs : 0 < s := hp.head
    have hs' : 0 < s' := hp.tail.head
    simp only [dimSizes, List.map_cons] at hc ⊢
    rw [extract_cons2 hk hs] at hc
    injection hc with h1 h2
    have hq0 : 0 ≤ k / s := Int.ediv_nonneg hk (le_of_lt hs)
    have hem := Int.emod_add_mul_ediv k s
    have hml := Int.emod_lt_of_pos k hs
    have hm0 := Int.emod_nonneg k (show s ≠ 0 by omega)
    have hcm' : c + m ≤ s := hcm (by simp)
    obtain ⟨c', cs', hcs⟩ : ∃ c' cs', cs = c' :: cs' := by
      have : (extractIndices (k / s) (s' :: L.map Prod.fst)).length ≠ 0 := by rw [extract_length]; simp
      rw [h2] at this
      cases cs with
      | nil => simp at this
      | cons a b => exact ⟨a, b, rfl⟩
    subst hcs
    rw [extract_cons2 (by omega) hs]
    simp only [incInDims]
    have hmax : max s 1 = s := by omega
    rw [hmax]
    by_cases hroll : c + m = s
    · rw [if_pos hroll]
      have hkm : k + m = s * (k / s + 1) := by rw [Int.mul_add]; omega
      have e1 : (k + m) % s = 0 := by rw [hkm, Int.mul_emod_right]
      have e2 : (k + m) / s = k / s + 1 := by
        rw [hkm]; exact Int.mul_ediv_cancel_left _ (by omega)
      rw [e1, e2]
      have := ih (s', st') (k / s) 1 (data + (st' - (c + m) • st)) c' cs' hp.tail hq0 (by omega) ?_ h2
      · simp only [dimSizes, List.map_cons] at this
        simp only [this]
      · intro hne
        -- a digit that is not the last is below its extent
        obtain ⟨q2, L2, rfl⟩ : ∃ q2 L2, L = q2 :: L2 := by
          cases L with
          | nil => exact absurd rfl hne
          | cons a b => exact ⟨a, b, rfl⟩
        simp only [List.map_cons] at h2
        rw [extract_cons2 hq0 hs'] at h2
        injection h2 with h3 _
        have := Int.emod_lt_of_pos (k / s) hs'
        omega
    · rw [if_neg hroll]
      have hkm : k + m = (c + m) + s * (k / s) := by omega
      have e1 : (k + m) % s = c + m := by
        rw [hkm, Int.add_mul_emod_self_left]
        exact Int.emod_eq_of_lt (by omega) (by omega)
      have e2 : (k + m) / s = k / s := by
        rw [hkm, Int.add_mul_ediv_left _ _ (by omega), Int.ediv_eq_zero_of_lt (by omega) (by omega)]
        simp
      rw [e1, e2, h2]

/-- Carrying keeps the difference of the memory index and the coordinates' offset. -/
theorem incInDims_data : ∀ (L : List (Int × Vec N)) (cs : List Int) (data : Vec N),
    (incInDims L cs data).2 - dot L (incInDims L cs data).1 = data - dot L cs := by
  intro L cs data
  fun_induction incInDims L cs data with
  | case1 s st s' st' ds c' cs data r ih =>
    change r.2 - dot ((s', st') :: ds) r.1 = _ at ih
    change r.2 - ((0 : Int) • st + dot ((s', st') :: ds) r.1) = _
    simp only [zero_smul, zero_add, ih]
    simp only [dot, add_smul, one_smul]
    abel
  | case2 => rfl
  | case3 => rfl

theorem incInDims_length : ∀ (L : List (Int × Vec N)) (cs : List Int) (data : Vec N),
    (incInDims L cs data).1.length = cs.length := by
  intro L cs data
  fun_induction incInDims L cs data with
  | case1 s st s' st' ds c' cs data r ih =>
    simp only [List.length_cons]; simp only [List.length_cons] at ih; exact congrArg (· + 1) ih
  | case2 => rfl
  | case3 => rfl

theorem incInDims_noop {p : Int × Vec N} {L : List (Int × Vec N)} {c : Int} {cs : List Int} {data : Vec N}
    (h : c ≠ max p.1 1) : incInDims (p :: L) (c :: cs) data = (c :: cs, data) := by
  cases L with
  | nil => simp [incInDims]
  | cons q L =>
    cases cs with
    | nil => simp [incInDims]
    | cons c' cs => simp [incInDims, h]

/-- Extracted coordinates determine the index. -/
theorem extract_inj : ∀ (ss : List Int) (k k' : Int), (∀ s ∈ ss, 0 < s) → 0 ≤ k → 0 ≤ k' →
    extractIndices k ss = extractIndices k' ss → k = k'
  | [], k, k', _, _, _, h => by simpa [extractIndices] using h
  | [_], k, k', _, _, _, h => by simpa [extractIndices] using h
  | s :: s' :: ss, k, k', hp, h0, h0', h => by
    have hs := hp s (by simp)
    rw [extract_cons2 h0 hs, extract_cons2 h0' hs] at h
    injection h with h1 h2
    have := extract_inj (s' :: ss) _ _ (fun x hx => hp x (List.mem_cons_of_mem _ hx))
      (Int.ediv_nonneg h0 (le_of_lt hs)) (Int.ediv_nonneg h0' (le_of_lt hs)) h2
    have e1 := Int.emod_add_mul_ediv k s
    have e2 := Int.emod_add_mul_ediv k' s
    rw [h1, this] at e1
    omega

theorem sizes_pos {M : Type} {L : List (Int × M)} (h : AllPos L) : ∀ s ∈ L.map Prod.fst, 0 < s := by
  intro s hs
  obtain ⟨p, hp, rfl⟩ := List.mem_map.1 hs
  exact h p hp

/-- Index state pointing at flat position `k`. -/
structure MInv (L : List (Int × Vec N)) (k : Int) (m : MultiIndex N) : Prop where
  dims : m.dims = L
  coord : m.coord = extractIndices k (dimSizes L)
  data : m.data = dot L m.coord

theorem MInv.setIndex {L : List (Int × Vec N)} {m : MultiIndex N} (h : m.dims = L) (k : Int) :
    MInv L k (m.setIndex k) := by
  refine ⟨h, by simp [MultiIndex.setIndex, h], ?_⟩
  simp only [MultiIndex.setIndex, flatVec_eq, h]

theorem MInv.incrementBy {p : Int × Vec N} {L : List (Int × Vec N)} {k n : Int} {m : MultiIndex N}
    (h : MInv (p :: L) k m) (hp : AllPos (p :: L)) (hk : 0 ≤ k) (hn : 0 ≤ n)
    (hle : L ≠ [] → (extractIndices k (dimSizes (p :: L))).headD 0 + n ≤ p.1) :
    MInv (p :: L) (k + n) (m.incrementBy n) := by
  obtain ⟨c, cs, hc⟩ : ∃ c cs, extractIndices k (dimSizes (p :: L)) = c :: cs := by
    have : (extractIndices k (dimSizes (p :: L))).length ≠ 0 := by rw [extract_length]; simp
    cases hx : extractIndices k (dimSizes (p :: L)) with
    | nil => rw [hx] at this; simp at this
    | cons a b => exact ⟨a, b, rfl⟩
  rw [hc] at hle
  have hco := h.coord
  rw [hc] at hco
  have hspec := incInDims_coord L p k n (m.data + n • p.2) c cs hp hk hn hle hc
  have hdat := incInDims_data (p :: L) ((c + n) :: cs) (m.data + n • p.2)
  have hb : m.incrementBy n = { m with data := (incInDims (p :: L) ((c + n) :: cs) (m.data + n • p.2)).2,
                                       coord := (incInDims (p :: L) ((c + n) :: cs) (m.data + n • p.2)).1 } := by
    simp only [MultiIndex.incrementBy]
    rw [h.dims, hco]
    simp only
    split
    · rfl
    · rename_i hne
      rw [incInDims_noop hne]
  rw [hb]
  refine ⟨h.dims, hspec, ?_⟩
  simp only
  have hd0 := h.data
  rw [hco] at hd0
  have e : (m.data + n • p.2) - dot (p :: L) ((c + n) :: cs) = 0 := by
    rw [hd0]; simp only [dot, add_smul]; abel
  rw [e] at hdat
  exact sub_eq_zero.1 hdat

/-- One block visits exactly its positions, in order. -/
theorem run_spec {p : Int × Vec N} {L : List (Int × Vec N)} (hp : AllPos (p :: L)) {e : Int} {me : MultiIndex N}
    (he : MInv (p :: L) e me) (hev : e ≤ fvol (p :: L)) : ∀ (fuel : Nat) (k : Int) (m : MultiIndex N),
    MInv (p :: L) k m → 0 ≤ k → k ≤ e → e - k < fuel →
    MultiIndex.run fuel m me = some ((List.range (e - k).toNat).map
      (fun (i : Nat) => memAt (p :: L) (k + i))) := by
  intro fuel
  induction fuel with
  | zero => intro k m _ _ _ h; simp at h; omega
  | succ fuel ih =>
    intro k m hm h0 hke hf
    have hps := hp.head
    simp only [MultiIndex.run, hm.coord, he.coord]
    by_cases hkeq : k = e
    · subst hkeq; simp
    · have hne : extractIndices k (dimSizes (p :: L)) ≠ extractIndices e (dimSizes (p :: L)) := fun h =>
        hkeq (extract_inj _ _ _ (sizes_pos hp) h0 (by omega) h)
      rw [if_neg hne]
      have hlt : k < e := by omega
      -- size of the chunk
      obtain ⟨n, hn, hn0, hnle, hchunk, hin⟩ : ∃ n, MultiIndex.innerSize m me = n ∧ 0 < n ∧ k + n ≤ e ∧
          (L ≠ [] → (extractIndices k (dimSizes (p :: L))).headD 0 + n ≤ p.1) ∧
          ∀ i, 0 ≤ i → i < n → (k + i) % p.1 = k % p.1 + i ∧ (k + i) / p.1 = k / p.1 := by
        have hem := Int.emod_add_mul_ediv k p.1
        have hml := Int.emod_lt_of_pos k hps
        have hm0 := Int.emod_nonneg k (show p.1 ≠ 0 by omega)
        have hee := Int.emod_add_mul_ediv e p.1
        have hel := Int.emod_lt_of_pos e hps
        have he0 := Int.emod_nonneg e (show p.1 ≠ 0 by omega)
        have hdm : ∀ i, 0 ≤ i → k % p.1 + i < p.1 → (k + i) % p.1 = k % p.1 + i ∧ (k + i) / p.1 = k / p.1 := by
          intro i hi hi2
          have hki : k + i = (k % p.1 + i) + p.1 * (k / p.1) := by omega
          constructor
          · rw [hki, Int.add_mul_emod_self_left]; exact Int.emod_eq_of_lt (by omega) hi2
          · rw [hki, Int.add_mul_ediv_left _ _ (by omega), Int.ediv_eq_zero_of_lt (by omega) hi2]; simp
        cases L with
        | nil =>
          refine ⟨e - k, ?_, by omega, by omega, by simp, ?_⟩
          · simp only [MultiIndex.innerSize, hm.coord, he.coord, dimSizes, List.map_cons, List.map_nil, extractIndices]
            simp
          · intro i hi hin
            have hv : e ≤ p.1 := by simpa [fvol] using hev
            have : k % p.1 = k := Int.emod_eq_of_lt h0 (by omega)
            exact hdm i hi (by omega)
        | cons q L =>
          have hxk : extractIndices k (dimSizes (p :: q :: L)) =
              (k % p.1) :: extractIndices (k / p.1) (dimSizes (q :: L)) := by
            simp only [dimSizes, List.map_cons]; exact extract_cons2 h0 hps
          have hxe : extractIndices e (dimSizes (p :: q :: L)) =
              (e % p.1) :: extractIndices (e / p.1) (dimSizes (q :: L)) := by
            simp only [dimSizes, List.map_cons]; exact extract_cons2 (by omega) hps
          simp only [MultiIndex.innerSize, hm.coord, he.coord, hm.dims, hxk, hxe, List.tail_cons, List.headD_cons]
          have hkd : 0 ≤ k / p.1 := Int.ediv_nonneg h0 (le_of_lt hps)
          have hed : 0 ≤ e / p.1 := Int.ediv_nonneg (by omega) (le_of_lt hps)
          have hdle : k / p.1 ≤ e / p.1 := Int.ediv_le_ediv hps (by omega)
          by_cases htail : k / p.1 = e / p.1
          · rw [htail, if_pos rfl]
            rw [htail] at hem
            refine ⟨_, rfl, by omega, by omega, fun _ => by omega, fun i hi hin => ?_⟩
            have := hdm i hi (by omega)
            rw [htail] at this
            exact this
          · rw [if_neg (fun h => htail (extract_inj (dimSizes (q :: L)) _ _ (sizes_pos hp.tail) hkd hed h))]
            simp only [dimSizes, List.map_cons, List.headD_cons]
            refine ⟨_, rfl, by omega, ?_, fun _ => by omega, fun i hi hin => hdm i hi (by omega)⟩
            have : k / p.1 + 1 ≤ e / p.1 := by omega
            have : p.1 * (k / p.1 + 1) ≤ p.1 * (e / p.1) := Int.mul_le_mul_of_nonneg_left this (by omega)
            rw [Int.mul_add] at this
            omega
      rw [hn, if_pos (by omega)]
      have hm' := hm.incrementBy hp h0 (by omega : (0 : Int) ≤ n) hchunk
      rw [ih (k + n) _ hm' (by omega) hnle (by push_cast at hf; omega)]
      simp only [Option.map_some, Option.some.injEq]
      -- split the range of positions
      have hsplit : (e - k).toNat = n.toNat + (e - (k + n)).toNat := by omega
      rw [hsplit, List.range_add, List.map_append, List.map_map]
      congr 1
      · simp only [MultiIndex.innerLoop]
        apply List.map_congr_left
        intro i hi
        simp only [List.mem_range] at hi
        obtain ⟨a, b⟩ := hin i (by omega) (by omega)
        have hkd : dot (p :: L) (extractIndices k (dimSizes (p :: L))) = memAt (p :: L) k :=
          dot_extract _ _ hp h0 (by omega)
        rw [hm.data, hm.coord, hkd]
        simp only [MultiIndex.innerStrides, hm.dims, List.map_cons, List.headD_cons, memAt, a, b, add_smul]
        abel
      · apply List.map_congr_left
        intro i _
        simp only [Function.comp_def]
        congr 1
        push_cast
        omega

end Scipp

namespace Scipp
open Sizes
variable {N : Nat}

/-! ### Relation to named coordinates -/

theorem memAt_apply (L : List (Int × Vec N)) (i : Fin N) : ∀ k,
    memAt L k i = memAt (L.map (fun p => (p.1, p.2 i))) k := by
  induction L with
  | nil => intro k; simp [memAt]
  | cons p L ih => intro k; simp [memAt, ih]

theorem readDims_map (i : Fin N) : ∀ (dims : Dims) (strides : Fin N → List Int),
    (strides i).length = dims.length →
    (readDims dims strides).map (fun p => (p.1, p.2 i)) = (shape dims).zip (strides i) := by
  intro dims
  induction dims with
  | nil => intro st _; simp [readDims, shape]
  | cons p ds ih =>
    intro st h
    have ht := ih (fun i => (st i).tail) (by simp [h])
    cases hs : st i with
    | nil => rw [hs] at h; simp at h
    | cons a b =>
      rw [hs] at ht
      simp only [List.tail_cons] at ht
      simp [readDims, ht, hs, shape]

theorem readDims_sizes : ∀ (dims : Dims) (strides : Fin N → List Int),
    (readDims dims strides).map Prod.fst = shape dims := by
  intro dims
  induction dims with
  | nil => intro st; simp [readDims, shape]
  | cons p ds ih => intro st; simp [readDims, ih, shape]

theorem readDims_length (dims : Dims) (strides : Fin N → List Int) :
    (readDims dims strides).length = dims.length := by
  have := congrArg List.length (readDims_sizes dims strides)
  simpa [shape] using this

theorem readDims_allPos {dims : Dims} {strides : Fin N → List Int} (h : ∀ p ∈ dims, 0 < p.2) :
    AllPos (readDims dims strides) := by
  intro p hp
  have : p.1 ∈ shape dims := by rw [← readDims_sizes dims strides]; exact List.mem_map_of_mem hp
  simp only [shape, List.mem_map] at this
  obtain ⟨q, hq, e⟩ := this
  rw [← e]; exact h q hq

theorem fvol_eq_prod {M : Type} [AddCommGroup M] (L : List (Int × M)) : fvol L = (L.map Prod.fst).prod := by
  induction L with
  | nil => rfl
  | cons p L ih => simp [fvol, ih]

theorem fvol_readDims (dims : Dims) (strides : Fin N → List Int) :
    fvol (readDims dims strides).reverse = Dims.volume dims := by
  have h := fvol_fastFirst (M := Int) dims (List.replicate dims.length 0) (by simp)
  rw [fvol_eq_prod] at h ⊢
  rw [← h]
  congr 1
  rw [List.map_reverse, readDims_sizes, fastFirst, List.map_reverse, List.map_fst_zip]
  simp [shape]

/-- Flat position to named coordinates, for all operands. -/
theorem memAt_readDims {dims : Dims} {strides : Fin N → List Int} (hw : Sizes.WF dims)
    (hl : ∀ i, (strides i).length = dims.length) {k : Int} (h0 : 0 ≤ k) (h1 : k < Dims.volume dims) :
    memAt (readDims dims strides).reverse k = fun i => addrAux dims (strides i) (coordsOf dims k) := by
  funext i
  rw [memAt_apply, List.map_reverse, readDims_map i dims strides (hl i)]
  have := memAt_addr dims (strides i) (hl i) _ (coordsOf_inDims hw h0 h1)
  rw [position_coordsOf hw h0 h1] at this
  exact this

theorem rowMajor_pos : ∀ (ss : List Int), (∀ s ∈ ss, 0 < s) →
    0 < (rowMajorAux ss).2 ∧ ∀ x ∈ rowMajor ss, 0 < x
  | [], _ => by simp [rowMajorAux, rowMajor]
  | s :: ss, h => by
    have ih := rowMajor_pos ss (fun x hx => h x (List.mem_cons_of_mem _ hx))
    refine ⟨Int.mul_pos ih.1 (h s (by simp)), fun x hx => ?_⟩
    simp only [rowMajor, rowMajorAux, List.mem_cons] at hx
    rcases hx with rfl | hx
    · exact ih.1
    · exact ih.2 x hx

end Scipp
