import Verif.Model.Index
import Verif.Lemmas.View
import Mathlib.Algebra.Module.Basic
import Mathlib.Algebra.Group.Pi.Basic
import Mathlib.Data.List.Induction
import Mathlib.Tactic.Abel
import Mathlib.Tactic.Ring
import Mathlib.Tactic.Linarith
/-!
Mixed-radix arithmetic behind `ViewIndex` and `MultiIndex`.
-/
namespace Scipp
open Sizes

section
variable {M : Type} [AddCommGroup M]

/-- Memory offset of flat index `k`; dims fastest first. -/
def memAt : List (Int × M) → Int → M
  | [], _ => 0
  | p :: L, k => (k % p.1) • p.2 + memAt L (k / p.1)

/-- Number of elements. -/
def fvol : List (Int × M) → Int
  | [] => 1
  | p :: L => p.1 * fvol L

/-- Sum of coordinate times stride. -/
def dot : List (Int × M) → List Int → M
  | p :: L, c :: cs => c • p.2 + dot L cs
  | _, _ => 0

def sizesOf (L : List (Int × M)) : List Int := L.map Prod.fst

def AllPos (L : List (Int × M)) : Prop := ∀ p ∈ L, 0 < p.1

theorem AllPos.tail {p : Int × M} {L : List (Int × M)} (h : AllPos (p :: L)) : AllPos L :=
  fun q hq => h q (List.mem_cons_of_mem _ hq)

theorem AllPos.head {p : Int × M} {L : List (Int × M)} (h : AllPos (p :: L)) : 0 < p.1 := h p (by simp)

theorem AllPos.append {A B : List (Int × M)} (ha : AllPos A) (hb : AllPos B) : AllPos (A ++ B) := by
  intro p hp
  rcases List.mem_append.1 hp with h | h
  · exact ha p h
  · exact hb p h

theorem fvol_pos {L : List (Int × M)} (h : AllPos L) : 0 < fvol L := by
  induction L with
  | nil => simp [fvol]
  | cons p L ih => exact Int.mul_pos h.head (ih h.tail)

theorem fvol_append (A B : List (Int × M)) : fvol (A ++ B) = fvol A * fvol B := by
  induction A with
  | nil => simp [fvol]
  | cons p A ih => simp only [List.cons_append, fvol, ih]; ring

theorem memAt_append (A B : List (Int × M)) : ∀ k : Int, 0 ≤ k → AllPos A →
    memAt (A ++ B) k = memAt A k + memAt B (k / fvol A) := by
  induction A with
  | nil => intro k _ _; simp [memAt, fvol]
  | cons p A ih =>
    intro k hk h
    simp only [List.cons_append, memAt, fvol]
    rw [ih _ (Int.ediv_nonneg hk (le_of_lt h.head)) h.tail, add_assoc, Int.ediv_ediv_of_nonneg (le_of_lt h.head)]

theorem memAt_merge (s1 s2 : Int) (st : M) (B : List (Int × M)) (k : Int) (h1 : 0 < s1)
    (h2 : 0 < s2) :
    memAt ((s1, st) :: (s2, s1 • st) :: B) k = memAt ((s1 * s2, st) :: B) k := by
  simp only [memAt]
  rw [Int.ediv_ediv_of_nonneg (le_of_lt h1), ← add_assoc, smul_smul, ← add_smul]
  congr 2
  have e := Int.emod_add_mul_ediv k (s1 * s2)
  have e1 := Int.emod_add_mul_ediv k s1
  have e2 := Int.emod_add_mul_ediv (k / s1) s2
  rw [Int.ediv_ediv_of_nonneg (le_of_lt h1)] at e2
  generalize hq : k / s1 % s2 = q at *
  generalize k / (s1 * s2) = r at *
  generalize k / s1 = t at *
  subst e2
  have : s1 * (q + s2 * r) = q * s1 + s1 * s2 * r := by ring
  rw [this] at e1
  omega

/-- Merging anywhere in the list. -/
theorem memAt_merge_mid (A B : List (Int × M)) (s1 s2 : Int) (st : M) (k : Int) (hk : 0 ≤ k)
    (hA : AllPos A) (h1 : 0 < s1) (h2 : 0 < s2) :
    memAt (A ++ (s1, st) :: (s2, s1 • st) :: B) k = memAt (A ++ (s1 * s2, st) :: B) k := by
  rw [memAt_append _ _ k hk hA, memAt_append _ _ k hk hA, memAt_merge _ _ _ _ _ h1 h2]

theorem extract_cons2 {s s' : Int} {ss : List Int} {k : Int} (hk : 0 ≤ k) (hs : 0 < s) :
    extractIndices k (s :: s' :: ss) = (k % s) :: extractIndices (k / s) (s' :: ss) := by
  simp only [extractIndices]
  rw [if_pos (by omega), Int.tdiv_eq_ediv_of_nonneg hk]
  have := Int.emod_add_mul_ediv k s
  have : k - k / s * s = k % s := by linarith [Int.mul_comm (k / s) s]
  rw [this]

theorem extract_length {k : Int} {ss : List Int} : (extractIndices k ss).length = max 1 ss.length := by
  fun_induction extractIndices k ss <;> simp_all

/-- The coordinates of a valid index recombine to the memory offset. -/
theorem dot_extract : ∀ (L : List (Int × M)) (k : Int), AllPos L → 0 ≤ k → k < fvol L →
    dot L (extractIndices k (sizesOf L)) = memAt L k
  | [], k, _, _, _ => by simp [dot, memAt]
  | [p], k, h, h0, h1 => by
    simp only [fvol, Int.mul_one] at h1
    simp [sizesOf, extractIndices, dot, memAt, Int.emod_eq_of_lt h0 h1]
  | p :: q :: L, k, h, h0, h1 => by
    have hp := h.head
    have ih := dot_extract (q :: L) (k / p.1) h.tail (Int.ediv_nonneg h0 (le_of_lt hp)) (by
      apply Int.ediv_lt_of_lt_mul hp
      rw [Int.mul_comm]; exact h1)
    simp only [sizesOf, List.map_cons] at ih ⊢
    rw [extract_cons2 h0 hp, dot, ih]; rfl

theorem div_lt_fvol {p : Int × M} {L : List (Int × M)} {k : Int} (hp : 0 < p.1)
    (h1 : k < fvol (p :: L)) : k / p.1 < fvol L := by
  apply Int.ediv_lt_of_lt_mul hp
  rw [Int.mul_comm]; exact h1

end

section flat

theorem flatIndex_eq_dot (L : List (Int × Int)) : ∀ is, flatIndex (L.map Prod.snd) is = dot L is := by
  induction L with
  | nil => intro is; simp [flatIndex, dot]
  | cons p L ih =>
    intro is
    cases is with
    | nil => simp [flatIndex, dot]
    | cons i is => simp [flatIndex, dot, ih, Int.mul_comm]

/-- Fastest-first list of `(size, stride)` for dims in storage order. -/
def fastFirst {M : Type} (dims : Dims) (strides : List M) : List (Int × M) :=
  ((shape dims).zip strides).reverse

theorem fastFirst_concat {M : Type} (dims : Dims) (p : Dim × Int) (strides : List M) (x : M)
    (h : strides.length = dims.length) :
    fastFirst (dims ++ [p]) (strides ++ [x]) = (p.2, x) :: fastFirst dims strides := by
  simp only [fastFirst, shape_append, shape_cons, shape_nil]
  rw [List.zip_append (by simp [h])]
  simp

theorem position_concat (dims : Dims) (p : Dim × Int) (c : Dim → Int) :
    position (dims ++ [p]) c = position dims c * p.2 + c p.1 := by
  simp [position, List.foldl_append]

theorem InDims.append_left {a b : Dims} {c : Dim → Int} (h : InDims (a ++ b) c) : InDims a c :=
  fun d n hm => h d n (by simp [hm])

/-- The memory offset of the flat index is the address of the coordinates with that
row-major position. -/
theorem memAt_addr (dims : Dims) : ∀ (strides : List Int), strides.length = dims.length →
    ∀ c, InDims dims c → memAt (fastFirst dims strides) (position dims c) = addrAux dims strides c := by
  induction dims using List.reverseRecOn with
  | nil =>
    intro st h c _
    cases st with
    | nil => simp [fastFirst, memAt]
    | cons a b => simp at h
  | append_singleton ds p ih =>
    intro st h c hc
    obtain ⟨st', x, rfl⟩ : ∃ st' x, st = st' ++ [x] := by
      have : st ≠ [] := by rintro rfl; simp at h
      exact ⟨st.dropLast, st.getLast this, (List.dropLast_append_getLast this).symm⟩
    have hl : st'.length = ds.length := by simpa using h
    rw [fastFirst_concat _ _ _ _ hl, memAt, position_concat, addrAux_append hl]
    have hp := hc p.1 p.2 (by simp)
    have e1 : (position ds c * p.2 + c p.1) % p.2 = c p.1 := by
      rw [Int.add_comm, Int.add_mul_emod_self_right, Int.emod_eq_of_lt hp.1 hp.2]
    have e2 : (position ds c * p.2 + c p.1) / p.2 = position ds c := by
      rw [Int.add_comm, Int.add_mul_ediv_right _ _ (by omega), Int.ediv_eq_zero_of_lt hp.1 hp.2]
      simp
    simp only [e1, e2, ih st' hl c hc.append_left, smul_eq_mul]
    simp [addrAux]
    ring

theorem fvol_fastFirst {M : Type} [AddCommGroup M] (dims : Dims) : ∀ (strides : List M), strides.length = dims.length →
    fvol (fastFirst dims strides) = Dims.volume dims := by
  induction dims using List.reverseRecOn with
  | nil => intro st h; simp [fastFirst, fvol]
  | append_singleton ds p ih =>
    intro st h
    obtain ⟨st', x, rfl⟩ : ∃ st' x, st = st' ++ [x] := by
      have : st ≠ [] := by rintro rfl; simp at h
      exact ⟨st.dropLast, st.getLast this, (List.dropLast_append_getLast this).symm⟩
    have hl : st'.length = ds.length := by simpa using h
    rw [fastFirst_concat _ _ _ _ hl, fvol, ih st' hl]
    simp [Int.mul_comm]

theorem allPos_of_lt {dims : Dims} (hn : ∀ p ∈ dims, 0 ≤ p.2) {k : Int} (h0 : 0 ≤ k)
    (h1 : k < Dims.volume dims) : ∀ p ∈ dims, 0 < p.2 := by
  intro p hp
  rcases lt_or_eq_of_le (hn p hp) with h | h
  · exact h
  · exfalso
    obtain ⟨a, b, rfl⟩ := List.append_of_mem hp
    simp [← h] at h1
    omega

theorem fastFirst_allPos {M : Type} [AddCommGroup M] {dims : Dims} {strides : List M}
    (h : ∀ p ∈ dims, 0 < p.2) : AllPos (fastFirst dims strides) := by
  intro p hp
  simp only [fastFirst, List.mem_reverse] at hp
  have := (List.of_mem_zip hp).1
  simp only [shape, List.mem_map] at this
  obtain ⟨q, hq, e⟩ := this
  rw [← e]; exact h q hq

end flat

/-! ### ViewIndex -/

def VDim.pair (e : VDim) : Int × Int := (e.size, e.stride)

/-- The deltas rewind the previous dimension. -/
def DeltaOK : Int → List VDim → Prop
  | _, [] => True
  | prev, e :: es => e.delta = e.stride - prev ∧ DeltaOK (e.size * e.stride) es

def lastRewind : List VDim → Int
  | [] => 0
  | e :: _ => e.size * e.stride

theorem deltaOK_concat : ∀ (l : List VDim) (prev : Int) (e : VDim), DeltaOK prev l →
    e.delta = e.stride - (match l.getLast? with | none => prev | some x => x.size * x.stride) →
    DeltaOK prev (l ++ [e])
  | [], prev, e, _, h => by simpa [DeltaOK] using h
  | a :: l, prev, e, h, he => by
    refine ⟨h.1, deltaOK_concat l _ e h.2 ?_⟩
    cases l with
    | nil => simpa using he
    | cons b l => rw [he, List.getLast?_cons_cons, List.getLast?_cons]

theorem deltaOK_init : ∀ (l : List VDim) (prev : Int) (e : VDim), DeltaOK prev (l ++ [e]) →
    DeltaOK prev l ∧ e.delta = e.stride - (match l.getLast? with | none => prev | some x => x.size * x.stride)
  | [], prev, e, h => by simpa [DeltaOK] using h
  | a :: l, prev, e, h => by
    obtain ⟨h1, h2⟩ := deltaOK_init l _ e h.2
    refine ⟨⟨h.1, h1⟩, ?_⟩
    rw [h2]
    cases l with
    | nil => simp
    | cons b l => rw [List.getLast?_cons_cons, List.getLast?_cons]

theorem viewIndexLoop_spec : ∀ (rest : List (Int × Int)) (rewind : Int) (out ds : List VDim),
    viewIndexLoop rest rewind out = .ok ds → rewind = lastRewind out → DeltaOK 0 out.reverse →
    AllPos (out.reverse.map VDim.pair) → AllPos rest →
    DeltaOK 0 ds ∧ AllPos (ds.map VDim.pair) ∧
    fvol (ds.map VDim.pair) = fvol (out.reverse.map VDim.pair ++ rest) ∧
    ∀ k, 0 ≤ k → memAt (ds.map VDim.pair) k = memAt (out.reverse.map VDim.pair ++ rest) k := by
  intro rest
  induction rest with
  | nil =>
    intro rewind out ds h _ hd hp _
    simp only [viewIndexLoop] at h
    injection h with h
    subst h
    refine ⟨hd, hp, by simp, by simp⟩
  | cons p rest ih =>
    intro rewind out ds h hr hd hp hrest
    obtain ⟨size, stride⟩ := p
    simp only [viewIndexLoop] at h
    split at h
    · split at h
      · have := ih _ _ _ h rfl ?_ ?_ hrest.tail
        · obtain ⟨h1, h2, h3, h4⟩ := this
          refine ⟨h1, h2, ?_, fun k hk => ?_⟩
          · rw [h3]; simp [VDim.pair]
          · rw [h4 k hk]; simp [VDim.pair]
        · rw [List.reverse_cons]
          apply deltaOK_concat _ _ _ hd
          simp only [List.getLast?_reverse, hr]
          cases out <;> simp [lastRewind]
        · rw [List.reverse_cons, List.map_append]
          apply hp.append
          intro q hq
          simp at hq; subst hq
          exact hrest.head
      · simp at h
    · rename_i hc
      have hst : stride = rewind := by
        by_contra e
        exact hc (.inl (by omega))
      have hst0 : stride ≠ 0 := fun e => hc (.inr e)
      split at h
      · simp at h
      · rename_i e out'
        simp only [lastRewind] at hr
        have hes : 0 < e.size := by
          have := hp e.pair (by simp)
          exact this
        have hs : 0 < size := hrest.head
        have hd' := hd
        rw [List.reverse_cons] at hd'
        obtain ⟨d1, d2⟩ := deltaOK_init _ _ _ hd'
        have := ih _ _ _ h ?_ ?_ ?_ hrest.tail
        · obtain ⟨h1, h2, h3, h4⟩ := this
          have hout' : AllPos (out'.reverse.map VDim.pair) := by
            intro q hq
            exact hp q (by simp only [List.reverse_cons, List.map_append]; exact List.mem_append_left _ hq)
          refine ⟨h1, h2, ?_, fun k hk => ?_⟩
          · rw [h3]
            simp only [List.reverse_cons, List.map_append, fvol_append, List.map_cons, List.map_nil, fvol, VDim.pair]
            ring
          · rw [h4 k hk]
            simp only [List.reverse_cons, List.map_append, List.map_cons, List.map_nil, List.append_assoc,
              List.singleton_append, VDim.pair]
            rw [← memAt_merge_mid _ _ _ _ _ _ hk hout' hes hs, hst, hr]
            simp
        · simp only [lastRewind]
          rw [hst, hr]; ring
        · rw [List.reverse_cons]
          exact deltaOK_concat _ _ _ d1 d2
        · intro q hq
          simp only [List.reverse_cons, List.map_append, List.map_cons, List.map_nil, List.mem_append,
            List.mem_singleton] at hq
          rcases hq with hq | hq
          · exact hp q (by simp only [List.reverse_cons, List.map_append]; exact List.mem_append_left _ hq)
          · subst hq; exact Int.mul_pos hes hs

theorem viewIndexLoop_length : ∀ (rest : List (Int × Int)) (rewind : Int) (out ds : List VDim),
    viewIndexLoop rest rewind out = .ok ds → out.length ≤ ndimOpMax → ds.length ≤ ndimOpMax := by
  intro rest
  induction rest with
  | nil =>
    intro rewind out ds h ho
    simp only [viewIndexLoop] at h
    injection h with h
    subst h; simpa using ho
  | cons p rest ih =>
    intro rewind out ds h ho
    simp only [viewIndexLoop] at h
    split at h
    · split at h
      · rename_i hl
        exact ih _ _ _ h (by simp; omega)
      · simp at h
    · split at h
      · simp at h
      · exact ih _ _ _ h (by simpa using ho)

theorem viewIndexLoop_ok : ∀ (rest : List (Int × Int)) (rewind : Int) (out : List VDim),
    out.length + rest.length ≤ ndimOpMax → (out = [] → rewind = 0) →
    ∃ ds, viewIndexLoop rest rewind out = .ok ds := by
  intro rest
  induction rest with
  | nil => intro rewind out _ _; exact ⟨_, rfl⟩
  | cons p rest ih =>
    intro rewind out hl hr
    simp only [List.length_cons] at hl
    simp only [viewIndexLoop]
    split
    · rw [if_pos (by omega)]
      exact ih _ _ (by simp; omega) (by simp)
    · rename_i hc
      cases out with
      | nil =>
        exfalso; apply hc
        rw [hr rfl]
        by_cases e : p.2 = 0
        · exact .inr e
        · exact .inl (by omega)
      | cons e out => exact ih _ _ (by simp at hl ⊢; omega) (by simp)

/-- Memory offset of coordinates. -/
abbrev vdot (ds : List VDim) (is : List Int) : Int := dot (ds.map VDim.pair) is

abbrev vext (ds : List VDim) (k : Int) : List Int := extractIndices k (ds.map VDim.size)

theorem vsizes (ds : List VDim) : sizesOf (ds.map VDim.pair) = ds.map VDim.size := by
  simp [sizesOf, VDim.pair, Function.comp_def]

theorem vext_cons2 {e e' : VDim} {L : List VDim} {k : Int} (hk : 0 ≤ k) (hs : 0 < e.size) :
    vext (e :: e' :: L) k = (k % e.size) :: vext (e' :: L) (k / e.size) := by
  simp only [vext, List.map_cons]
  exact extract_cons2 hk hs

theorem incOuter_spec : ∀ (L : List VDim) (e : VDim) (padD : List VDim) (padC : List Int) (k prev mem : Int),
    0 ≤ k → AllPos ((e :: L).map VDim.pair) → k + 1 < fvol ((e :: L).map VDim.pair) → DeltaOK prev (e :: L) →
    ∀ c cs, vext (e :: L) k = c :: cs →
    ViewIndex.incOuter (e :: L ++ padD) ((c + 1) :: cs ++ padC) mem =
      (vext (e :: L) (k + 1) ++ padC, mem + vdot (e :: L) (vext (e :: L) (k + 1)) -
        vdot (e :: L) (vext (e :: L) k) - e.stride) := by
  intro L
  induction L with
  | nil =>
    intro e padD padC k prev mem h0 hp hk hd c cs hc
    have hv : vext [e] k = [k] := rfl
    have hv1 : vext [e] (k + 1) = [k + 1] := rfl
    rw [hv] at hc
    injection hc with hc1 hc2
    subst hc1; subst hc2
    rw [hv, hv1]
    simp only [fvol, List.map_cons, List.map_nil, Int.mul_one, VDim.pair] at hk
    have hne : k + 1 ≠ e.size := by omega
    have e2 : vdot [e] [k + 1] - vdot [e] [k] - e.stride = 0 := by
      simp only [vdot, List.map_cons, List.map_nil, dot, VDim.pair, smul_eq_mul]; ring
    have e3 : mem + vdot [e] [k + 1] - vdot [e] [k] - e.stride = mem := by linarith
    rw [e3]
    cases padD with
    | nil => simp [ViewIndex.incOuter]
    | cons e' padD =>
      cases padC with
      | nil => simp [ViewIndex.incOuter]
      | cons c' padC => simp [ViewIndex.incOuter, hne]
  | cons e' L ih =>
    intro e padD padC k prev mem h0 hp hk hd c cs hc
    have hs : 0 < e.size := hp.head
    rw [vext_cons2 h0 hs] at hc
    injection hc with hc1 hc2
    have hq0 : 0 ≤ k / e.size := Int.ediv_nonneg h0 (le_of_lt hs)
    have hem := Int.emod_add_mul_ediv k e.size
    have hml := Int.emod_lt_of_pos k hs
    have hm0 := Int.emod_nonneg k (show e.size ≠ 0 by omega)
    have hlen : ∃ c' cs', cs = c' :: cs' := by
      have : (vext (e' :: L) (k / e.size)).length ≠ 0 := by rw [extract_length]; simp
      rw [hc2] at this
      cases cs with
      | nil => simp at this
      | cons a b => exact ⟨a, b, rfl⟩
    obtain ⟨c', cs', rfl⟩ := hlen
    rw [vext_cons2 h0 hs, vext_cons2 (show 0 ≤ k + 1 by omega) hs]
    by_cases hroll : c + 1 = e.size
    · have e1 : (k + 1) % e.size = 0 := by
        have : k + 1 = e.size * (k / e.size + 1) := by rw [Int.mul_add]; omega
        rw [this, Int.mul_emod_right]
      have e2 : (k + 1) / e.size = k / e.size + 1 := by
        have : k + 1 = e.size * (k / e.size + 1) := by rw [Int.mul_add]; omega
        conv_lhs => rw [this]
        exact Int.mul_ediv_cancel_left _ (by omega)
      have hlt : k / e.size + 1 < fvol ((e' :: L).map VDim.pair) := by
        rw [← e2]
        exact div_lt_fvol (p := e.pair) (L := (e' :: L).map VDim.pair) hs hk
      have ih' := ih e' padD padC (k / e.size) (e.size * e.stride) (mem + e'.delta) hq0 hp.tail hlt hd.2 c' cs' hc2
      simp only [List.cons_append] at ih' ⊢
      simp only [ViewIndex.incOuter]
      rw [if_pos hroll, ih']
      rw [e1, e2]
      simp only [List.cons_append, Prod.mk.injEq, true_and]
      have hd1 := hd.2.1
      simp only [vdot, List.map_cons, dot] at *
      rw [hd1]
      have : (VDim.pair e).2 = e.stride := rfl
      simp only [this, smul_eq_mul]
      rw [hc1]
      have : c = e.size - 1 := by omega
      rw [this]
      ring
    · have e1 : (k + 1) % e.size = c + 1 := by
        have : k + 1 = (c + 1) + e.size * (k / e.size) := by omega
        rw [this, Int.add_mul_emod_self_left]
        exact Int.emod_eq_of_lt (by omega) (by omega)
      have e2 : (k + 1) / e.size = k / e.size := by
        have : k + 1 = (c + 1) + e.size * (k / e.size) := by omega
        rw [this, Int.add_mul_ediv_left _ _ (by omega), Int.ediv_eq_zero_of_lt (by omega) (by omega)]
        simp
      rw [e1, e2, hc2]
      simp only [List.cons_append, ViewIndex.incOuter]
      rw [if_neg hroll]
      simp only [Prod.mk.injEq, true_and, vdot, List.map_cons, dot]
      rw [hc1]
      have : (VDim.pair e).2 = e.stride := rfl
      simp only [this, smul_eq_mul]
      ring

theorem incOuter_length : ∀ (L : List VDim) (cs : List Int) (mem : Int),
    (ViewIndex.incOuter L cs mem).1.length = cs.length := by
  intro L cs mem
  fun_induction ViewIndex.incOuter L cs mem with
  | case1 _ _ _ _ _ _ r ih => simp only [List.length_cons]; simp only [List.length_cons] at ih; exact congrArg (· + 1) ih
  | case2 => rfl
  | case3 => rfl

/-- State of the index when it points at flat index `k`. -/
structure VInv (ds : List VDim) (v : ViewIndex) : Prop where
  dims : v.dims = ds ++ List.replicate (ndimOpMax - ds.length) ⟨0, 0, 0⟩
  ndim : v.ndim = ds.length
  len : v.coord.length = ndimOpMax
  at_ : 0 ≤ v.index → v.index < fvol (ds.map VDim.pair) →
    (∃ pad, v.coord = vext ds v.index ++ pad) ∧ v.mem = memAt (ds.map VDim.pair) v.index

theorem take_dims {ds : List VDim} {v : ViewIndex} (h : VInv ds v) : v.dims.take v.ndim = ds := by
  rw [h.dims, h.ndim]; simp

theorem setIndex_inv {ds : List VDim} {v : ViewIndex} (h : VInv ds v) (hl : ds.length ≤ ndimOpMax)
    (hp : 0 < fvol (ds.map VDim.pair) → AllPos (ds.map VDim.pair)) (k : Int) :
    VInv ds (v.setIndex k) ∧ (v.setIndex k).index = k := by
  refine ⟨⟨h.dims, h.ndim, ?_, ?_⟩, rfl⟩
  · simp only [ViewIndex.setIndex, List.length_append, List.length_drop, extract_length, take_dims h, h.len,
      List.length_map]
    simp only [ndimOpMax] at *
    omega
  · intro h0 h1
    simp only [ViewIndex.setIndex] at h0 h1 ⊢
    rw [take_dims h]
    refine ⟨⟨_, rfl⟩, ?_⟩
    have : ds.map VDim.stride = (ds.map VDim.pair).map Prod.snd := by simp [VDim.pair, Function.comp_def]
    rw [this, flatIndex_eq_dot, ← vsizes]
    exact dot_extract _ _ (hp (by omega)) h0 h1

theorem increment_inv {ds : List VDim} {v : ViewIndex} (h : VInv ds v) (hd : DeltaOK 0 ds)
    (hp : 0 < fvol (ds.map VDim.pair) → AllPos (ds.map VDim.pair))
    (h0 : 0 ≤ v.index) (h1 : v.index < fvol (ds.map VDim.pair)) :
    VInv ds v.increment ∧ v.increment.index = v.index + 1 := by
  have hp := hp (by omega)
  have hlc := h.len
  have hdl : v.dims.length ≠ 0 := by
    rw [h.dims, List.length_append, List.length_replicate]; simp only [ndimOpMax]; omega
  obtain ⟨⟨pad, hco⟩, hm⟩ := h.at_ h0 h1
  simp only [ViewIndex.increment]
  split
  · rename_i e ds' c cs hde hce
    have hlen : ∀ m x, (if c + 1 = e.size then
        ({ v with mem := (ViewIndex.incOuter v.dims ((c + 1) :: cs) m).2,
                  coord := (ViewIndex.incOuter v.dims ((c + 1) :: cs) m).1, index := x } : ViewIndex)
        else { v with mem := m, coord := (c + 1) :: cs, index := x }).coord.length = ndimOpMax := by
      intro m x
      split
      · simp only [incOuter_length]; rw [hce] at hlc; simpa using hlc
      · rw [hce] at hlc; simpa using hlc
    refine ⟨⟨?_, ?_, hlen _ _, ?_⟩, ?_⟩
    · split <;> exact h.dims
    · split <;> exact h.ndim
    · intro _ hk
      have hidx : ∀ m, (if c + 1 = e.size then
        ({ v with mem := (ViewIndex.incOuter v.dims ((c + 1) :: cs) m).2,
                  coord := (ViewIndex.incOuter v.dims ((c + 1) :: cs) m).1, index := v.index + 1 } : ViewIndex)
        else { v with mem := m, coord := (c + 1) :: cs, index := v.index + 1 }).index = v.index + 1 := by
        intro m; split <;> rfl
      rw [hidx] at hk ⊢
      -- there is at least one dimension
      cases ds with
      | nil => simp [fvol] at hk; omega
      | cons e0 L =>
        have he : e = e0 := by rw [h.dims] at hde; simpa using (congrArg List.head? hde).symm
        subst he
        have hds' : v.dims = e :: L ++ List.replicate (ndimOpMax - (e :: L).length) ⟨0, 0, 0⟩ := h.dims
        obtain ⟨c0, cs0, hx⟩ : ∃ c0 cs0, vext (e :: L) v.index = c0 :: cs0 := by
          have : (vext (e :: L) v.index).length ≠ 0 := by rw [extract_length]; simp
          cases hv : vext (e :: L) v.index with
          | nil => rw [hv] at this; simp at this
          | cons a b => exact ⟨a, b, rfl⟩
        have hcs : c = c0 ∧ cs = cs0 ++ pad := by
          rw [hx, hce] at hco
          simpa using hco
        obtain ⟨rfl, rfl⟩ := hcs
        have hspec := incOuter_spec L e (List.replicate (ndimOpMax - (e :: L).length) ⟨0, 0, 0⟩) pad v.index 0
          (v.mem + e.delta) h0 hp hk hd c cs0 hx
        have hdot : ∀ k, 0 ≤ k → k < fvol ((e :: L).map VDim.pair) →
            vdot (e :: L) (vext (e :: L) k) = memAt ((e :: L).map VDim.pair) k := by
          intro k k0 k1
          have := dot_extract _ k hp k0 k1
          rw [vsizes] at this
          exact this
        rw [hdot _ (by omega) hk, hdot _ h0 h1, ← hds'] at hspec
        have hdel : e.delta = e.stride := by have := hd.1; omega
        -- both branches agree with `incOuter`, which does nothing when not at the end
        have hboth : (if c + 1 = e.size then
            ({ v with mem := (ViewIndex.incOuter v.dims ((c + 1) :: (cs0 ++ pad)) (v.mem + e.delta)).2,
                      coord := (ViewIndex.incOuter v.dims ((c + 1) :: (cs0 ++ pad)) (v.mem + e.delta)).1,
                      index := v.index + 1 } : ViewIndex)
            else { v with mem := v.mem + e.delta, coord := (c + 1) :: (cs0 ++ pad), index := v.index + 1 }) =
            { v with mem := (ViewIndex.incOuter v.dims ((c + 1) :: (cs0 ++ pad)) (v.mem + e.delta)).2,
                     coord := (ViewIndex.incOuter v.dims ((c + 1) :: (cs0 ++ pad)) (v.mem + e.delta)).1,
                     index := v.index + 1 } := by
          split
          · rfl
          · rename_i hne
            have : ViewIndex.incOuter v.dims ((c + 1) :: (cs0 ++ pad)) (v.mem + e.delta) =
                ((c + 1) :: (cs0 ++ pad), v.mem + e.delta) := by
              rw [hde]
              generalize (cs0 ++ pad) = l
              cases ds' with
              | nil => simp [ViewIndex.incOuter]
              | cons e' ds' =>
                cases l with
                | nil => simp [ViewIndex.incOuter]
                | cons c' l => simp [ViewIndex.incOuter, hne]
            rw [this]
        rw [hboth]
        simp only [List.cons_append] at hspec
        rw [hspec]
        refine ⟨⟨pad, rfl⟩, ?_⟩
        simp only
        rw [hm, hdel]
        ring
    · split <;> rfl
  · exfalso
    rename_i x1 x2 hx
    cases hv : v.dims with
    | nil => rw [hv] at hdl; simp at hdl
    | cons e ds' =>
      cases hc : v.coord with
      | nil => rw [hc] at hlc; simp [ndimOpMax] at hlc
      | cons c cs => exact hx e ds' c cs hv hc

theorem viewIndexLoop_nonneg : ∀ (rest : List (Int × Int)) (rw : Int) (out ds : List VDim),
    viewIndexLoop rest rw out = .ok ds → (∀ e ∈ out, 0 ≤ e.size) → (∀ p ∈ rest, 0 ≤ p.1) →
    ∀ e ∈ ds, 0 ≤ e.size := by
  intro rest
  induction rest with
  | nil =>
    intro rw out ds h ho _
    simp only [viewIndexLoop] at h
    injection h with h
    subst h
    intro e he
    exact ho e (by simpa using he)
  | cons p rest ih =>
    intro rw out ds h ho hr
    simp only [viewIndexLoop] at h
    split at h
    · split at h
      · refine ih _ _ _ h ?_ (fun q hq => hr q (List.mem_cons_of_mem _ hq))
        intro e he
        rcases List.mem_cons.1 he with rfl | he
        · exact hr p (by simp)
        · exact ho e he
      · simp at h
    · split at h
      · simp at h
      · rename_i e0 out'
        refine ih _ _ _ h ?_ (fun q hq => hr q (List.mem_cons_of_mem _ hq))
        intro e he
        rcases List.mem_cons.1 he with rfl | he
        · exact Int.mul_nonneg (ho e0 (by simp)) (hr p (by simp))
        · exact ho e (List.mem_cons_of_mem _ he)

theorem allPos_of_fvol {M : Type} [AddCommGroup M] {L : List (Int × M)} (hn : ∀ p ∈ L, 0 ≤ p.1)
    (h : 0 < fvol L) : AllPos L := by
  intro p hp
  rcases lt_or_eq_of_le (hn p hp) with h' | h'
  · exact h'
  · exfalso
    obtain ⟨a, b, rfl⟩ := List.append_of_mem hp
    simp only [fvol_append, fvol, ← h'] at h
    simp at h

/-- Iterators start in a consistent state. -/
theorem iterAt_inv {dims : Dims} {strides : List Int} {k : Int} {v : ViewIndex} (hw : Sizes.WF dims)
    (hl : strides.length = dims.length) (h : iterAt dims strides k = .ok v) :
    ∃ ds, ds.length ≤ ndimOpMax ∧ VInv ds v ∧ v.index = k ∧
      (0 < fvol (ds.map VDim.pair) → AllPos (ds.map VDim.pair)) ∧
      (0 < Dims.volume dims → DeltaOK 0 ds ∧ AllPos (ds.map VDim.pair) ∧
        fvol (ds.map VDim.pair) = Dims.volume dims ∧
        ∀ j, 0 ≤ j → memAt (ds.map VDim.pair) j = memAt (fastFirst dims strides) j) := by
  simp only [iterAt, ViewIndex.make, bind, Except.bind] at h
  cases hds : viewIndexLoop ((shape dims).zip strides).reverse 0 [] with
  | error e => rw [hds] at h; simp at h
  | ok ds =>
    rw [hds] at h
    simp only at h
    injection h with h
    have hlen := viewIndexLoop_length _ _ _ _ hds (by simp)
    have hnn : ∀ e ∈ ds, 0 ≤ e.size := by
      refine viewIndexLoop_nonneg _ _ _ _ hds (by simp) ?_
      intro p hp
      simp only [List.mem_reverse] at hp
      have := (List.of_mem_zip hp).1
      simp only [shape, List.mem_map] at this
      obtain ⟨q, hq, e⟩ := this
      rw [← e]; exact hw.2 q hq
    have hfp : 0 < fvol (ds.map VDim.pair) → AllPos (ds.map VDim.pair) := by
      apply allPos_of_fvol
      intro p hp
      obtain ⟨e, he, rfl⟩ := List.mem_map.1 hp
      exact hnn e he
    have hinit : VInv ds ⟨0, 0, ds ++ List.replicate (ndimOpMax - ds.length) ⟨0, 0, 0⟩,
        List.replicate ndimOpMax 0, ds.length⟩ := by
      refine ⟨rfl, rfl, by simp, ?_⟩
      intro _ h1
      have hp := hfp (by simpa using h1)
      have hz : ∀ (l : List VDim), AllPos (l.map VDim.pair) → vext l 0 = List.replicate (max 1 l.length) 0 := by
        intro l
        induction l with
        | nil => intro _; rfl
        | cons a l ih =>
          intro ha
          cases l with
          | nil => rfl
          | cons b l =>
            rw [vext_cons2 (Int.le_refl 0) ha.head]
            have := ih ha.tail
            simp only [List.length_cons] at this ⊢
            simp only [Int.zero_emod, Int.zero_ediv]
            rw [this]
            simp [Nat.max_def, List.replicate_succ]
      have hm : ∀ (l : List (Int × Int)), memAt l 0 = 0 := by
        intro l
        induction l with
        | nil => rfl
        | cons a l ih => simp [memAt, ih]
      refine ⟨⟨List.replicate (ndimOpMax - max 1 ds.length) 0, ?_⟩, ?_⟩
      · simp only
        rw [hz ds hp, List.replicate_append_replicate]
        congr 1
        simp only [ndimOpMax] at *
        omega
      · simp [hm]
    obtain ⟨hinv, hidx⟩ := setIndex_inv hinit hlen hfp k
    rw [h] at hinv hidx
    refine ⟨ds, hlen, hinv, hidx, hfp, ?_⟩
    intro hv
    have hp := allPos_of_lt hw.2 (Int.le_refl 0) hv
    obtain ⟨a, b, c, d⟩ := viewIndexLoop_spec _ _ _ _ hds rfl trivial (by intro p hp; simp at hp)
      (fastFirst_allPos hp)
    refine ⟨a, b, ?_, fun j hj => ?_⟩
    · rw [c]
      have := fvol_fastFirst dims strides hl
      simpa [fastFirst] using this
    · rw [d j hj]; simp [fastFirst]

end Scipp
