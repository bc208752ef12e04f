import Verif.Model.Numpy
import Verif.Model.Structure
import Verif.Props.Index
import Verif.Lemmas.SizedDict
import Mathlib.Data.List.Perm.Basic
import Mathlib.Tactic.Ring
import Mathlib.Tactic.Linarith

/-!
# C64: assignment of NumPy arrays

`var.values = array` sets every element of the variable to the corresponding element the array
had before the assignment, and nothing else, even if the array refers to the memory of the
variable, and in whatever order blocks are processed. Proved for all variables whose dims are in
memory order, i.e. anything but transposed ones, and for all variables if the array does not
refer to their memory; false for transposed variables and for matrices.
-/

namespace Scipp.Props
open Scipp Sizes Numpy

variable {V : Type}

/-- Largest offset of an element. -/
def reach : Dims → List Int → Int
  | (_, n) :: ds, s :: ss => (n - 1) * s + reach ds ss
  | _, _ => 0

/-- A step along any dim leads beyond all elements of the dims inside of it: the variable has not
been transposed. -/
def InMemoryOrder : Dims → List Int → Prop
  | (_, _) :: ds, s :: ss => 0 < s ∧ reach ds ss < s ∧ InMemoryOrder ds ss
  | _, _ => True

/-- Every position is processed once, in a block that starts at or before it. -/
def Processed (n : Nat) (order : List (Nat × Nat)) : Prop :=
  (order.map Prod.snd).Perm (List.range n) ∧ ∀ p ∈ order, p.1 ≤ p.2

/-- Result of an assignment: elements at `base + strides` come from `ptr + strides'` of the memory
before, everything else is unchanged. -/
def ArrayAssigned (v : View) (a : NpArray) (mem mem' : Int → V) : Prop :=
  (∀ c, InDims v.dims c → mem' (v.addr c) = mem (a.ptr + addrAux v.dims a.strides c)) ∧
  ∀ x, (∀ c, InDims v.dims c → v.addr c ≠ x) → mem' x = mem x

/-! ### Addresses -/

theorem reach_nonneg : ∀ {ds : Dims} {ss : List Int} {c : Dim → Int}, InMemoryOrder ds ss → InDims ds c →
    0 ≤ addrAux ds ss c ∧ addrAux ds ss c ≤ reach ds ss
  | [], _, _, _, _ => by simp [addrAux, reach]
  | _ :: _, [], _, _, _ => by simp [addrAux, reach]
  | (d, n) :: ds, s :: ss, c, h, hc => by
    obtain ⟨h1, h2, h3⟩ := h
    obtain ⟨i1, i2⟩ := reach_nonneg h3 (fun e m hm => hc e m (List.mem_cons_of_mem _ hm))
    obtain ⟨c0, c1⟩ := hc d n (by simp)
    simp only [addrAux, reach]
    constructor
    · have := Int.mul_nonneg c0 (le_of_lt h1); omega
    · have := Int.mul_le_mul_of_nonneg_right (show c d ≤ n - 1 by omega) (le_of_lt h1); omega

theorem inMemoryOrder_inj : ∀ {ds : Dims} {ss : List Int} {c c' : Dim → Int}, ss.length = ds.length →
    InMemoryOrder ds ss → InDims ds c → InDims ds c' → addrAux ds ss c = addrAux ds ss c' →
    ∀ d ∈ labels ds, c d = c' d
  | [], _, _, _, _, _, _, _, _ => by simp
  | _ :: _, [], _, _, hl, _, _, _, _ => by simp at hl
  | (d, n) :: ds, s :: ss, c, c', hl, h, hc, hc', he => by
    obtain ⟨h1, h2, h3⟩ := h
    have g := fun e m (hm : (e, m) ∈ ds) => hc e m (List.mem_cons_of_mem _ hm)
    have g' := fun e m (hm : (e, m) ∈ ds) => hc' e m (List.mem_cons_of_mem _ hm)
    obtain ⟨i1, i2⟩ := reach_nonneg h3 g
    obtain ⟨j1, j2⟩ := reach_nonneg h3 g'
    simp only [addrAux] at he
    have hd : c d = c' d := by
      have e1 : (c d * s + addrAux ds ss c) / s = c d := by
        rw [Int.add_comm, Int.add_mul_ediv_right _ _ (by omega), Int.ediv_eq_zero_of_lt i1 (by omega)]; omega
      have e2 : (c' d * s + addrAux ds ss c') / s = c' d := by
        rw [Int.add_comm, Int.add_mul_ediv_right _ _ (by omega), Int.ediv_eq_zero_of_lt j1 (by omega)]; omega
      rw [← e1, ← e2, he]
    intro e hm
    simp only [labels_cons, List.mem_cons] at hm
    rcases hm with rfl | hm
    · exact hd
    · rw [hd] at he
      exact inMemoryOrder_inj (by simpa using hl) h3 g g' (by omega) e hm

theorem inMemoryOrder_distinct {v : View} (hw : v.WF) (h : InMemoryOrder v.dims v.strides) : v.Distinct := by
  intro c c' hc hc' he
  refine inMemoryOrder_inj hw.2.1 h hc hc' ?_
  simp only [View.addr] at he
  omega

/-- Bounds of the addresses of an array: the upper bound is only attained if no stride is
positive, and is zero then. -/
theorem bounds_fold (ds : Dims) : ∀ (ss : List Int) (c : Dim → Int) (b : Int × Int), InDims ds c →
    ∃ lo hi, ((shape ds).zip ss).foldl (fun (b : Int × Int) p =>
      if p.2 < 0 then (b.1 + p.1 * p.2, b.2) else (b.1, b.2 + p.1 * p.2)) b = (b.1 + lo, b.2 + hi) ∧
      lo ≤ addrAux ds ss c ∧ addrAux ds ss c ≤ hi ∧ lo ≤ 0 ∧ 0 ≤ hi ∧ (addrAux ds ss c = hi → hi = 0) := by
  induction ds with
  | nil => intro ss c b _; exact ⟨0, 0, by simp, by simp [addrAux], by simp [addrAux], by simp, by simp, by simp⟩
  | cons p ds ih =>
    obtain ⟨d, n⟩ := p
    intro ss c b hc
    cases ss with
    | nil => exact ⟨0, 0, by simp, by simp [addrAux], by simp [addrAux], by simp, by simp, by simp⟩
    | cons s ss =>
      obtain ⟨c0, c1⟩ := hc d n (by simp)
      have hc' : InDims ds c := fun e m hm => hc e m (List.mem_cons_of_mem _ hm)
      by_cases hs : s < 0
      · obtain ⟨lo, hi, e, l1, l2, l3, l4, l5⟩ := ih ss c (b.1 + n * s, b.2) hc'
        refine ⟨n * s + lo, hi, ?_, ?_, ?_, ?_, l4, ?_⟩
        · simp only [shape_cons, List.zip_cons_cons, List.foldl_cons, hs, if_true]
          rw [e]; simp [Int.add_assoc]
        · simp only [addrAux]
          have : n * s ≤ c d * s := Int.mul_le_mul_of_nonpos_right (by omega) (by omega)
          omega
        · simp only [addrAux]
          have := Int.mul_nonpos_of_nonneg_of_nonpos c0 (le_of_lt hs)
          omega
        · have := Int.mul_nonpos_of_nonneg_of_nonpos (show 0 ≤ n by omega) (le_of_lt hs)
          omega
        · simp only [addrAux]
          intro he
          have := Int.mul_nonpos_of_nonneg_of_nonpos c0 (le_of_lt hs)
          exact l5 (by omega)
      · have hs0 : 0 ≤ s := by omega
        obtain ⟨lo, hi, e, l1, l2, l3, l4, l5⟩ := ih ss c (b.1, b.2 + n * s) hc'
        have m0 := Int.mul_nonneg c0 hs0
        have m1 := Int.mul_nonneg (show 0 ≤ n by omega) hs0
        have m2 : (c d + 1) * s ≤ n * s := Int.mul_le_mul_of_nonneg_right (by omega) hs0
        rw [Int.add_mul] at m2
        refine ⟨lo, n * s + hi, ?_, ?_, ?_, l3, ?_, ?_⟩
        · simp only [shape_cons, List.zip_cons_cons, List.foldl_cons, hs, if_false]
          rw [e]; simp [Int.add_assoc]
        · simp only [addrAux]; omega
        · simp only [addrAux]; omega
        · omega
        · simp only [addrAux]
          intro he
          have hz : s = 0 := by omega
          subst hz
          simp only [Int.mul_zero, Int.zero_add] at he ⊢
          exact l5 he

theorem bounds_spec {ds : Dims} {ss : List Int} {c : Dim → Int} (hc : InDims ds c) (hne : ds ≠ []) :
    (memoryBounds (shape ds) ss).1 ≤ addrAux ds ss c ∧ addrAux ds ss c ≤ (memoryBounds (shape ds) ss).2 ∧
    (addrAux ds ss c = (memoryBounds (shape ds) ss).2 → (memoryBounds (shape ds) ss).2 = 0) := by
  obtain ⟨lo, hi, e, l1, l2, l3, l4, l5⟩ := bounds_fold ds ss c (0, 0) hc
  have hs : shape ds ≠ [] := by
    cases ds with
    | nil => exact absurd rfl hne
    | cons p ds => simp
  simp only [memoryBounds, hs, if_false, e]
  simp only [Int.zero_add]
  exact ⟨l1, l2, l5⟩

/-! ### The end iterator -/

theorem viewIndexLoop_last : ∀ (rest : List (Int × Int)) (rewind : Int) (out ds : List VDim),
    viewIndexLoop rest rewind out = .ok ds → rewind = lastRewind out →
    lastRewind ds.reverse = (match rest.getLast? with | none => rewind | some p => p.1 * p.2) := by
  intro rest
  induction rest with
  | nil =>
    intro rewind out ds h hr
    simp only [viewIndexLoop] at h
    injection h with h
    subst h
    simp [hr]
  | cons p rest ih =>
    intro rewind out ds h hr
    obtain ⟨size, stride⟩ := p
    simp only [viewIndexLoop] at h
    have key : lastRewind ds.reverse = (match rest.getLast? with | none => size * stride | some p => p.1 * p.2) := by
      split at h
      · split at h
        · exact ih _ _ _ h rfl
        · simp at h
      · rename_i hcond
        split at h
        · simp at h
        · rename_i e out'
          refine ih _ _ _ h ?_
          simp only [not_or, ne_eq, not_not] at hcond
          simp only [lastRewind] at hr ⊢
          have : stride = rewind := by omega
          rw [this, hr]
          ring
    rw [key]
    cases rest with
    | nil => simp
    | cons q rest =>
      simp only [List.getLast?_cons_cons]
      cases h' : (q :: rest).getLast? with
      | none => simp at h'
      | some x => rfl

theorem extract_volume : ∀ (L : List VDim), L ≠ [] → AllPos (L.map VDim.pair) →
    flatIndex (L.map VDim.stride) (extractIndices (fvol (L.map VDim.pair)) (L.map VDim.size)) =
      lastRewind L.reverse
  | [], h, _ => absurd rfl h
  | [e], _, _ => by simp [flatIndex, extractIndices, fvol, VDim.pair, lastRewind]; ring
  | e :: e' :: L, _, hp => by
    have hs : 0 < e.size := hp.head
    have ih := extract_volume (e' :: L) (by simp) hp.tail
    have hpos : 0 < fvol ((e' :: L).map VDim.pair) := fvol_pos hp.tail
    simp only [List.map_cons] at ih ⊢
    rw [extract_cons2 (by simp only [fvol, VDim.pair] at *; exact Int.mul_nonneg (le_of_lt hs) (le_of_lt hpos)) hs]
    have h1 : fvol (VDim.pair e :: VDim.pair e' :: L.map VDim.pair) % e.size = 0 := by
      simp only [fvol, VDim.pair]
      exact Int.mul_emod_right _ _
    have h2 : fvol (VDim.pair e :: VDim.pair e' :: L.map VDim.pair) / e.size =
        fvol (VDim.pair e' :: L.map VDim.pair) := by
      simp only [fvol, VDim.pair]
      exact Int.mul_ediv_cancel_left _ (by omega)
    rw [h1, h2]
    simp only [flatIndex, Int.mul_zero, Int.zero_add]
    rw [ih]
    simp only [List.reverse_cons, List.append_assoc, lastRewind]
    cases hL : L.reverse with
    | nil => simp
    | cons x xs => simp

/-- The end iterator of a view points to the start of the row after the last one. -/
theorem end_mem {d : Dim} {n s : Int} {ds : Dims} {ss : List Int} {e : ViewIndex}
    (hw : Sizes.WF ((d, n) :: ds)) (hl : ss.length = ds.length) (hv : 0 < Dims.volume ((d, n) :: ds))
    (h : iterAt ((d, n) :: ds) (s :: ss) (Dims.volume ((d, n) :: ds)) = .ok e) : e.mem = n * s := by
  simp only [iterAt, ViewIndex.make, bind, Except.bind] at h
  cases hds : viewIndexLoop ((shape ((d, n) :: ds)).zip (s :: ss)).reverse 0 [] with
  | error x => rw [hds] at h; simp at h
  | ok L =>
    rw [hds] at h
    simp only at h
    injection h with h
    have hpos := allPos_of_lt hw.2 (le_refl 0) hv
    have hrest : AllPos ((shape ((d, n) :: ds)).zip (s :: ss)).reverse := fastFirst_allPos (dims := (d, n) :: ds) hpos
    obtain ⟨_, hp, hf, _⟩ := viewIndexLoop_spec _ _ _ _ hds rfl (by simp [DeltaOK]) (by intro p hp; simp at hp) hrest
    have hlast := viewIndexLoop_last _ _ _ _ hds rfl
    have hfv : fvol (L.map VDim.pair) = Dims.volume ((d, n) :: ds) := by
      rw [hf]
      simp only [List.reverse_nil, List.map_nil, List.nil_append]
      exact fvol_fastFirst ((d, n) :: ds) (s :: ss) (by simpa using hl)
    have hLne : L ≠ [] := by
      rintro rfl
      cases hds' : ((shape ((d, n) :: ds)).zip (s :: ss)).reverse with
      | nil => simp at hds'
      | cons q Q =>
        rw [hds'] at hds
        obtain ⟨q1, q2⟩ := q
        simp only [viewIndexLoop] at hds
        have hlen : ∀ (rest : List (Int × Int)) (rw : Int) (out ds : List VDim), viewIndexLoop rest rw out = .ok ds →
            out.length ≤ ds.length := by
          intro rest
          induction rest with
          | nil => intro rw out ds h; simp only [viewIndexLoop] at h; injection h with h; subst h; simp
          | cons p rest ih =>
            intro rw out ds h
            simp only [viewIndexLoop] at h
            split at h
            · split at h
              · have := ih _ _ _ h; simp at this; omega
              · simp at h
            · split at h
              · simp at h
              · have := ih _ _ _ h; simpa using this
        split at hds
        · split at hds
          · have := hlen _ _ _ _ hds; simp at this
          · simp at hds
        · simp at hds
    rw [← h]
    simp only [ViewIndex.setIndex]
    rw [List.take_append_of_le_length (by simp), List.take_length]
    rw [← hfv, extract_volume L hLne hp, hlast]
    simp [List.getLast?_reverse]

/-! ### Order of elements -/

theorem range_mul_flatMap {α : Type} (a b : Nat) (f : Nat → α) :
    (List.range (a * b)).map f = (List.range a).flatMap fun i => (List.range b).map fun j => f (i * b + j) := by
  induction a with
  | zero => simp
  | succ a ih =>
    rw [Nat.succ_mul, List.range_add, List.map_append, ih, List.range_succ, List.flatMap_append]
    simp [List.map_map, Function.comp_def]

theorem nestedAddrs_eq : ∀ (ds : Dims) (ss : List Int) (ptr : Int), Sizes.WF ds → ss.length = ds.length →
    nestedAddrs (shape ds) ss ptr =
      (List.range (Dims.volume ds).toNat).map fun (k : Nat) => ptr + addrAux ds ss (coordsOf ds k)
  | [], ss, ptr, _, _ => by simp [nestedAddrs, addrAux]
  | (d, n) :: ds, [], _, _, hl => by simp at hl
  | (d, n) :: ds, s :: ss, ptr, hw, hl => by
    have hw' : Sizes.WF ds := ⟨(List.nodup_cons.1 hw.1).2, fun p hp => hw.2 p (List.mem_cons_of_mem _ hp)⟩
    have hn : 0 ≤ n := hw.2 (d, n) (by simp)
    have hv : 0 ≤ Dims.volume ds := volume_nonneg hw'.2
    have hd : d ∉ labels ds := (List.nodup_cons.1 hw.1).1
    have e : (Dims.volume ((d, n) :: ds)).toNat = n.toNat * (Dims.volume ds).toNat := by
      rw [volume_cons, Int.toNat_mul hn hv]
    rw [e, range_mul_flatMap]
    simp only [shape_cons, nestedAddrs]
    rw [List.flatMap_def, List.flatMap_def]
    congr 1
    apply List.map_congr_left
    intro i _
    rw [nestedAddrs_eq ds ss _ hw' (by simpa using hl)]
    apply List.map_congr_left
    intro j hj
    simp only [List.mem_range] at hj
    have hj1 : (j : Int) < Dims.volume ds := by omega
    have hvv : ((Dims.volume ds).toNat : Int) = Dims.volume ds := Int.toNat_of_nonneg hv
    have e1 : ((i * (Dims.volume ds).toNat + j : Nat) : Int) = i * Dims.volume ds + j := by
      push_cast; rw [hvv]
    have e2 : ((i * Dims.volume ds + j : Int)) / Dims.volume ds = i := by
      rw [Int.add_comm, Int.add_mul_ediv_right _ _ (by omega), Int.ediv_eq_zero_of_lt (by omega) hj1]; omega
    have e3 : ((i * Dims.volume ds + j : Int)) % Dims.volume ds = j := by
      rw [Int.add_comm, Int.add_mul_emod_self_right, Int.emod_eq_of_lt (by omega) hj1]
    rw [e1]
    simp only [addrAux]
    have h1 : coordsOf ((d, n) :: ds) (i * Dims.volume ds + j) d = i := by simp only [coordsOf, if_true, e2]
    have h2 : addrAux ds ss (coordsOf ((d, n) :: ds) (i * Dims.volume ds + j)) = addrAux ds ss (coordsOf ds j) := by
      apply addrAux_congr
      intro x hx
      have : x ≠ d := fun h => hd (h ▸ hx)
      simp only [coordsOf, this, if_false, e3]
    rw [h1, h2]
    ring

theorem contiguous_addr (ds : Dims) : ∀ (ss : List Int) (sd : Int) (c : Dim → Int), ss.length = ds.length →
    InDims ds c → contiguousLoop (fastFirst ds ss) sd = true → addrAux ds ss c = sd * position ds c := by
  induction ds using List.reverseRecOn with
  | nil => intro ss sd c _ _ _; simp [addrAux, position]
  | append_singleton ds p ih =>
    intro ss sd c hl hc h
    obtain ⟨ss, x, rfl⟩ : ∃ t x, ss = t ++ [x] := by
      rcases List.eq_nil_or_concat ss with e | ⟨t, x, e⟩
      · subst e; simp at hl
      · exact ⟨t, x, by simpa using e⟩
    have hl' : ss.length = ds.length := by simpa using hl
    rw [fastFirst_concat _ _ _ _ hl'] at h
    rw [addrAux_append hl', position_concat]
    have hc' : InDims ds c := InDims.append_left hc
    obtain ⟨c0, c1⟩ := hc p.1 p.2 (by simp)
    simp only [contiguousLoop] at h
    simp only [addrAux, Int.add_zero]
    split at h
    · rename_i h1
      rw [ih ss sd c hl' hc' h]
      have : c p.1 = 0 := by omega
      rw [this, h1]
      ring
    · simp only [Bool.and_eq_true, decide_eq_true_eq] at h
      rw [ih ss _ c hl' hc' h.2, h.1]
      ring

/-! ### Executions -/

/-- Reading a source element gives what was there at first, as long as target elements written so
far are not read, or only if they are written what is there. -/
theorem copyAll_spec (t : Target) (addrs : List Int) (snap : Option (Int → V)) (mem0 : Int → V) (n : Nat)
    (D S : Nat → Int) (ha : addrs = (List.range n).map S)
    (hD : ∀ b k : Nat, b ≤ k → k < n → ∃ it, advanced t b (k - b) = .ok it ∧ t.base + it.mem = D k)
    (hinj : ∀ j k, j < n → k < n → D j = D k → j = k)
    (hsafe : snap = some mem0 ∨ snap = none ∧ ∀ j k, j < n → k < n → S k = D j → S j = S k) :
    ∀ (order : List (Nat × Nat)) (mem : Int → V), (order.map Prod.snd).Nodup → (∀ p ∈ order, p.1 ≤ p.2 ∧ p.2 < n) →
    (snap = none → ∀ k, k < n → mem (S k) = mem0 (S k)) →
    ∃ mem', copyAll addrs snap t mem order = .ok mem' ∧ (∀ p ∈ order, mem' (D p.2) = mem0 (S p.2)) ∧
      ∀ x, (∀ p ∈ order, D p.2 ≠ x) → mem' x = mem x := by
  intro order
  induction order with
  | nil => intro mem _ _ _; exact ⟨mem, rfl, by simp, fun _ _ => rfl⟩
  | cons p order ih =>
    obtain ⟨b, k⟩ := p
    intro mem hn hp hr
    obtain ⟨hbk, hk⟩ := hp (b, k) (by simp)
    obtain ⟨it, e1, e2⟩ := hD b k hbk hk
    simp only at hbk hk
    have hak : addrs[k]? = some (S k) := by rw [ha]; simp [hk]
    have hval : (snap.getD mem) (S k) = mem0 (S k) := by
      rcases hsafe with h | ⟨h, _⟩
      · simp [h]
      · simp only [h, Option.getD_none]; exact hr h k hk
    simp only [List.map_cons, List.nodup_cons] at hn
    have hstep : copyElement addrs snap t mem b k = .ok (fun x => if x = D k then mem0 (S k) else mem x) := by
      simp only [copyElement, bind, Except.bind, e1, hak, e2, hval]
    obtain ⟨mem', f1, f2, f3⟩ := ih (fun x => if x = D k then mem0 (S k) else mem x) hn.2
      (fun q hq => hp q (List.mem_cons_of_mem _ hq)) (by
        intro hnone j hj
        by_cases hjk : S j = D k
        · simp only [hjk, if_true]
          rcases hsafe with h | ⟨_, h⟩
          · rw [h] at hnone; simp at hnone
          · rw [h k j hk hj hjk, hjk]
        · simp only [hjk, if_false]; exact hr hnone j hj)
    refine ⟨mem', ?_, ?_, ?_⟩
    · simp only [copyAll, bind, Except.bind, hstep]; exact f1
    · intro q hq
      rcases List.mem_cons.1 hq with rfl | hq
      · simp only
        by_cases hin : ∃ r ∈ order, D r.2 = D k
        · obtain ⟨r, hr', he⟩ := hin
          have := hinj r.2 k (hp r (List.mem_cons_of_mem _ hr')).2 hk he
          exact absurd (List.mem_map.2 ⟨r, hr', this⟩) hn.1
        · rw [f3 (D k) (fun r hr' he => hin ⟨r, hr', he⟩)]
          simp
      · exact f2 q hq
    · intro x hx
      rw [f3 x (fun q hq => hx q (List.mem_cons_of_mem _ hq))]
      have : x ≠ D k := fun e => hx (b, k) (by simp) e.symm
      simp [this]

theorem stepsInRange_replicate (n : Int) : ∀ (m : Nat) (k : Int), 0 ≤ k → k + m ≤ n →
    StepsInRange n k (List.replicate m .inc)
  | 0, k, h0, h1 => by simp [StepsInRange]; omega
  | m + 1, k, h0, h1 => by
    simp only [List.replicate_succ, StepsInRange, stepTarget]
    exact ⟨by omega, stepsInRange_replicate n m (k + 1) (by omega) (by omega)⟩

theorem foldl_stepTarget : ∀ (m : Nat) (k : Int), (List.replicate m IterOp.inc).foldl stepTarget k = k + m
  | 0, k => by simp
  | m + 1, k => by
    simp only [List.replicate_succ, List.foldl_cons, stepTarget]
    rw [foldl_stepTarget m (k + 1)]
    push_cast
    ring

theorem advanced_spec {t : Target} (hw : Sizes.WF t.dims) (hl : t.strides.length = t.dims.length)
    (h6 : t.dims.length ≤ 6) {b k : Nat} (hbk : b ≤ k) (hk : (k : Int) < Dims.volume t.dims) :
    ∃ it, advanced t b (k - b) = .ok it ∧ it.mem = addrAux t.dims t.strides (coordsOf t.dims k) := by
  obtain ⟨v, hv⟩ := C09_iterator_exists t.dims t.strides b h6
  have h := C09_random_access t.dims t.strides b v (List.replicate (k - b) .inc) hw hl hv
    (stepsInRange_replicate _ _ _ (by omega) (by omega))
  refine ⟨(List.replicate (k - b) IterOp.inc).foldl IterOp.run v, by simp only [advanced, bind, Except.bind, hv], ?_⟩
  apply h.2 _ (coordsOf_inDims hw (by omega) hk)
  rw [position_coordsOf hw (by omega) hk, foldl_stepTarget]
  omega

theorem volume_shape (ds : Dims) : (shape ds).foldl (· * ·) 1 = Dims.volume ds := by
  simp [Dims.volume, shape, List.foldl_map]

/-- The general case: the array is not read where the variable is written, unless what is written
is what is there. -/
theorem assign_spec (v : View) (a : NpArray) (mem : Int → V) (order : List (Nat × Nat))
    (hw : v.WF) (hd : v.Distinct) (h6 : v.dims.length ≤ 6) (hs : a.shape = shape v.dims)
    (hl : a.strides.length = v.dims.length) (ho : Processed (Dims.volume v.dims).toNat order)
    (hsafe : memoryOverlaps a (targetOf v) = .ok false → ∀ c c', InDims v.dims c → InDims v.dims c' →
      a.ptr + addrAux v.dims a.strides c = v.addr c' →
      addrAux v.dims a.strides c' = addrAux v.dims a.strides c) :
    ∃ mem', copyArrayIntoView a (targetOf v) mem order = .ok mem' ∧ ArrayAssigned v a mem mem' := by
  have hvn : 0 ≤ Dims.volume v.dims := volume_nonneg hw.1.2
  obtain ⟨ib, hib⟩ := C09_iterator_exists v.dims v.strides 0 h6
  obtain ⟨ie, hie⟩ := C09_iterator_exists v.dims v.strides (Dims.volume v.dims) h6
  obtain ⟨ov, hov⟩ : ∃ ov, memoryOverlaps a (targetOf v) = .ok ov := by
    simp only [memoryOverlaps, targetOf, bind, Except.bind, hib, hie]
    exact ⟨_, rfl⟩
  have hsz : a.size = Dims.volume v.dims := by rw [NpArray.size, hs, volume_shape]
  let n := (Dims.volume v.dims).toNat
  have hlt : ∀ k : Nat, k < n → (k : Int) < Dims.volume v.dims := by intro k hk; simp only [n] at hk; omega
  let D : Nat → Int := fun k => v.offset + addrAux v.dims v.strides (coordsOf v.dims k)
  let S : Nat → Int := fun k => a.ptr + addrAux v.dims a.strides (coordsOf v.dims k)
  have hin : ∀ k : Nat, k < n → InDims v.dims (coordsOf v.dims k) :=
    fun k hk => coordsOf_inDims hw.1 (by omega) (hlt k hk)
  have hnest : nestedAddrs a.shape a.strides a.ptr = (List.range n).map S := by
    rw [hs]; exact nestedAddrs_eq _ _ _ hw.1 hl
  have hD : ∀ b k : Nat, b ≤ k → k < n → ∃ it, advanced (targetOf v) b (k - b) = .ok it ∧ (targetOf v).base + it.mem = D k := by
    intro b k hbk hk
    obtain ⟨it, e1, e2⟩ := advanced_spec (t := targetOf v) hw.1 hw.2.1 h6 hbk (hlt k hk)
    exact ⟨it, e1, by rw [e2]; rfl⟩
  have hinj : ∀ j k, j < n → k < n → D j = D k → j = k := by
    intro j k hj hk he
    have := hd _ _ (hin j hj) (hin k hk) he
    have e1 := position_coordsOf hw.1 (k := (j : Int)) (by omega) (hlt j hj)
    have e2 := position_coordsOf hw.1 (k := (k : Int)) (by omega) (hlt k hk)
    have e3 : position v.dims (coordsOf v.dims j) = position v.dims (coordsOf v.dims k) := by
      have hcong : ∀ (s : Dims) (c c' : Dim → Int) (z : Int), (∀ d ∈ labels s, c d = c' d) →
          s.foldl (fun acc p => acc * p.2 + c p.1) z = s.foldl (fun acc p => acc * p.2 + c' p.1) z := by
        intro s
        induction s with
        | nil => intro c c' z _; rfl
        | cons p s ih =>
          intro c c' z h
          simp only [List.foldl_cons]
          rw [h p.1 (by simp), ih c c' _ (fun d hd => h d (by simp [hd]))]
      exact hcong _ _ _ _ this
    omega
  have hord : (order.map Prod.snd).Nodup ∧ ∀ p ∈ order, p.1 ≤ p.2 ∧ p.2 < n := by
    refine ⟨ho.1.nodup_iff.2 List.nodup_range, fun p hp => ⟨ho.2 p hp, ?_⟩⟩
    exact List.mem_range.1 (ho.1.mem_iff.1 (List.mem_map.2 ⟨p, hp, rfl⟩))
  have hall : ∀ k < n, ∃ p ∈ order, p.2 = k := fun k hk =>
    List.mem_map.1 (ho.1.mem_iff.2 (List.mem_range.2 hk))
  have finish : ∀ mem', (∀ p ∈ order, mem' (D p.2) = mem (S p.2)) →
      (∀ x, (∀ p ∈ order, D p.2 ≠ x) → mem' x = mem x) → ArrayAssigned v a mem mem' := by
    intro mem' h1 h2
    constructor
    · intro c hc
      have hpos := position_bounds hc
      obtain ⟨p, hp, e⟩ := hall (position v.dims c).toNat (by simp only [n]; omega)
      have hco : ∀ d ∈ labels v.dims, coordsOf v.dims ((position v.dims c).toNat : Int) d = c d := by
        rw [Int.toNat_of_nonneg hpos.1]
        exact coordsOf_position hw.1.1 hc
      have := h1 p hp
      rw [e] at this
      simp only [D, S] at this
      rw [addrAux_congr (st := v.strides) hco, addrAux_congr (st := a.strides) hco] at this
      exact this
    · intro x hx
      apply h2
      intro p hp he
      exact hx _ (hin p.2 (hord.2 p hp).2) he
  have hshape : ¬ (shape (targetOf v).dims ≠ a.shape) := by simp [targetOf, hs]
  have hsize : ¬ (Dims.volume (targetOf v).dims ≠ a.size) := by simp [targetOf, hsz]
  simp only [copyArrayIntoView, hshape, if_false, copyElements, hsize, bind, Except.bind, hov]
  cases hovb : ov with
  | true =>
    obtain ⟨mem', f1, f2, f3⟩ := copyAll_spec (targetOf v) _ (some mem) mem n D S hnest hD hinj (.inl rfl) order mem
      hord.1 hord.2 (by simp)
    exact ⟨mem', by simpa using f1, finish mem' f2 f3⟩
  | false =>
    rw [hovb] at hov
    have hsafe' : ∀ j k, j < n → k < n → S k = D j → S j = S k := by
      intro j k hj hk he
      have := hsafe hov _ _ (hin k hk) (hin j hj) he
      simp only [S, this]
    simp only [Bool.false_eq_true, if_false]
    by_cases hc : isCContiguous a = true
    · simp only [hc, if_true]
      have hflat : flatAddrs a.size.toNat a.ptr = (List.range n).map S := by
        simp only [flatAddrs, hsz]
        apply List.map_congr_left
        intro k hk
        have hk' : k < n := List.mem_range.1 hk
        simp only [S]
        have hloop : contiguousLoop (fastFirst v.dims a.strides) 1 = true := by
          simp only [isCContiguous, Bool.or_eq_true, hs] at hc
          rcases hc with h0 | h
          · exfalso
            simp only [List.contains_iff_mem, shape, List.mem_map] at h0
            obtain ⟨p, hp, e⟩ := h0
            have := allPos_of_lt hw.1.2 (le_refl 0) (by have := hlt k hk'; omega) p hp
            omega
          · exact h
        rw [contiguous_addr v.dims a.strides 1 _ hl (hin k hk') hloop, position_coordsOf hw.1 (by omega) (hlt k hk')]
        ring
      obtain ⟨mem', f1, f2, f3⟩ := copyAll_spec (targetOf v) _ none mem n D S hflat hD hinj (.inr ⟨rfl, hsafe'⟩) order mem
        hord.1 hord.2 (fun _ _ _ => rfl)
      exact ⟨mem', f1, finish mem' f2 f3⟩
    · have hc' : isCContiguous a = false := by simpa using hc
      have h6' : ¬ a.shape.length > 6 := by rw [hs]; simp [shape]; omega
      simp only [hc', Bool.false_eq_true, if_false, h6']
      obtain ⟨mem', f1, f2, f3⟩ := copyAll_spec (targetOf v) _ none mem n D S hnest hD hinj (.inr ⟨rfl, hsafe'⟩) order mem
        hord.1 hord.2 (fun _ _ _ => rfl)
      exact ⟨mem', f1, finish mem' f2 f3⟩

/-! ### C64 -/

/-- **C64**, partial: assigning an array to a variable that has not been transposed sets every
element to the corresponding element of the array as it was before, whatever memory the array
refers to, with strides of any sign, and in whatever order positions are processed. What is
missing are transposed variables, see `C64_wrong_for_transposed`. -/
theorem C64_assign_partial (v : View) (a : NpArray) (mem : Int → V) (order : List (Nat × Nat))
    (hw : v.WF) (hm : InMemoryOrder v.dims v.strides) (h6 : v.dims.length ≤ 6) (hs : a.shape = shape v.dims)
    (hl : a.strides.length = v.dims.length) (ho : Processed (Dims.volume v.dims).toNat order) :
    ∃ mem', copyArrayIntoView a (targetOf v) mem order = .ok mem' ∧ ArrayAssigned v a mem mem' := by
  refine assign_spec v a mem order hw (inMemoryOrder_distinct hw hm) h6 hs hl ho ?_
  intro hov c c' hc hc' he
  obtain ⟨ib, hib⟩ := C09_iterator_exists v.dims v.strides 0 h6
  obtain ⟨ie, hie⟩ := C09_iterator_exists v.dims v.strides (Dims.volume v.dims) h6
  simp only [memoryOverlaps, targetOf, bind, Except.bind, hib, hie] at hov
  injection hov with hov
  cases hvd : v.dims with
  | nil => rw [hvd] at hl; simp [addrAux]
  | cons p ds =>
    obtain ⟨d, n⟩ := p
    have hne : v.dims ≠ [] := by rw [hvd]; simp
    obtain ⟨l1, l2, l3⟩ := bounds_spec (ss := a.strides) hc hne
    obtain ⟨r1, r2⟩ := reach_nonneg hm hc'
    have hvol : 0 < Dims.volume v.dims := by
      have := position_bounds hc; omega
    -- begin of the view
    have hbm : ib.mem = 0 := by
      have h0 := (C09_random_access v.dims v.strides 0 ib [] hw.1 hw.2.1 hib (by simp [StepsInRange]; omega)).2
      have := h0 (coordsOf v.dims 0) (coordsOf_inDims hw.1 (le_refl 0) hvol) (by
        simpa using position_coordsOf hw.1 (le_refl 0) hvol)
      simp only [List.foldl_nil] at this
      rw [this]
      have hz : ∀ e, coordsOf v.dims 0 e = 0 := by
        intro e
        have hgen : ∀ s : Dims, coordsOf s 0 e = 0 := by
          intro s
          induction s with
          | nil => rfl
          | cons q s ih => simp only [coordsOf]; split <;> simp [ih]
        exact hgen _
      have hzero : ∀ (s : Dims) (st : List Int) (c : Dim → Int), (∀ e, c e = 0) → addrAux s st c = 0 := by
        intro s
        induction s with
        | nil => intro st c _; rfl
        | cons q s ih =>
          intro st c h
          cases st with
          | nil => rfl
          | cons x st => simp [addrAux, h, ih st c h]
      exact hzero _ _ _ hz
    -- end of the view
    obtain ⟨s, ss, hst⟩ : ∃ s ss, v.strides = s :: ss := by
      cases h : v.strides with
      | nil => have := hw.2.1; rw [h, hvd] at this; simp at this
      | cons s ss => exact ⟨s, ss, rfl⟩
    have hem : ie.mem = n * s := by
      rw [hvd, hst] at hie
      exact end_mem (hvd ▸ hw.1) (by have := hw.2.1; rw [hst, hvd] at this; simpa using this) (hvd ▸ hvol) hie
    have hlast : addrAux v.dims v.strides c' < n * s := by
      have h1 := hm
      rw [hvd, hst] at h1 ⊢
      obtain ⟨g1, g2, g3⟩ := h1
      have hc'' : InDims ((d, n) :: ds) c' := hvd ▸ hc'
      obtain ⟨c0, c1⟩ := hc'' d n (by simp)
      obtain ⟨q1, q2⟩ := reach_nonneg g3 (fun e m hm => hc'' e m (List.mem_cons_of_mem _ hm))
      simp only [addrAux]
      have : (c' d + 1) * s ≤ n * s := Int.mul_le_mul_of_nonneg_right (by omega) (le_of_lt g1)
      rw [Int.add_mul] at this
      omega
    rw [← hvd]
    rw [hs, hbm, hem] at hov
    simp only [Bool.and_eq_false_iff, decide_eq_false_iff_not, not_lt, gt_iff_lt] at hov
    simp only [View.addr] at he
    rcases hov with h | h
    · exfalso
      have h := of_decide_eq_false h
      omega
    · have hk : addrAux v.dims a.strides c = (memoryBounds (shape v.dims) a.strides).2 := by omega
      have hz := l3 hk
      have hd0 : addrAux v.dims v.strides c' = 0 := by omega
      -- the element at offset 0 is the first one
      have hzc : InDims v.dims (fun _ => 0) := by
        intro e m hm'
        refine ⟨le_refl _, ?_⟩
        exact allPos_of_lt hw.1.2 (le_refl 0) hvol (e, m) hm'
      have hzero : ∀ (s : Dims) (st : List Int), addrAux s st (fun _ => 0) = 0 := by
        intro s
        induction s with
        | nil => intro st; rfl
        | cons q s ih =>
          intro st
          cases st with
          | nil => rfl
          | cons x st => simp [addrAux, ih st]
      have hsame := inMemoryOrder_inj hw.2.1 hm hc' hzc (by rw [hd0, hzero])
      rw [addrAux_congr hsame, hzero]
      omega

/-- **C64** (foreign arrays): if the array does not refer to the elements of the variable, the
assignment is right for all variables, also transposed ones. -/
theorem C64_assign_foreign (v : View) (a : NpArray) (mem : Int → V) (order : List (Nat × Nat))
    (hw : v.WF) (hd : v.Distinct) (h6 : v.dims.length ≤ 6) (hs : a.shape = shape v.dims)
    (hl : a.strides.length = v.dims.length) (ho : Processed (Dims.volume v.dims).toNat order)
    (hf : ∀ c c', InDims v.dims c → InDims v.dims c' → a.ptr + addrAux v.dims a.strides c ≠ v.addr c') :
    ∃ mem', copyArrayIntoView a (targetOf v) mem order = .ok mem' ∧ ArrayAssigned v a mem mem' :=
  assign_spec v a mem order hw hd h6 hs hl ho fun _ c c' hc hc' he => absurd he (hf c c' hc hc')

/-- **C64** (shape): an array of another shape is rejected, also if it has as many elements. -/
theorem C64_shape_checked (v : View) (a : NpArray) (mem : Int → V) (order : List (Nat × Nat))
    (h : a.shape ≠ shape v.dims) : copyArrayIntoView a (targetOf v) mem order = .error .dimension := by
  have h' : shape (targetOf v).dims ≠ a.shape := fun e => h e.symm
  simp only [copyArrayIntoView, h', ne_eq, not_false_eq_true, if_true]

/-- Slicing keeps dims in memory order. -/
theorem reach_append : ∀ (a b : Dims) (sa sb : List Int), sa.length = a.length →
    reach (a ++ b) (sa ++ sb) = reach a sa + reach b sb
  | [], b, sa, sb, h => by
    have : sa = [] := List.eq_nil_of_length_eq_zero (by simpa using h)
    simp [this, reach]
  | (d, n) :: a, b, [], sb, h => by simp at h
  | (d, n) :: a, b, s :: sa, sb, h => by
    simp only [List.cons_append, reach]
    rw [reach_append a b sa sb (by simpa using h)]
    omega

theorem inMemoryOrder_append : ∀ (a b : Dims) (sa sb : List Int), sa.length = a.length →
    (InMemoryOrder (a ++ b) (sa ++ sb) → InMemoryOrder b sb)
  | [], b, sa, sb, h => by
    have : sa = [] := List.eq_nil_of_length_eq_zero (by simpa using h)
    simp [this]
  | (d, n) :: a, b, [], sb, h => by simp at h
  | (d, n) :: a, b, s :: sa, sb, h => fun hm => inMemoryOrder_append a b sa sb (by simpa using h) hm.2.2

/-- Replacing the inner dims by others that reach no further keeps the memory order. -/
theorem inMemoryOrder_replace : ∀ (a b b' : Dims) (sa sb sb' : List Int), sa.length = a.length →
    InMemoryOrder (a ++ b) (sa ++ sb) → InMemoryOrder b' sb' → reach b' sb' ≤ reach b sb →
    InMemoryOrder (a ++ b') (sa ++ sb')
  | [], b, b', sa, sb, sb', h, _, h2, _ => by
    have : sa = [] := List.eq_nil_of_length_eq_zero (by simpa using h)
    simpa [this] using h2
  | (d, n) :: a, b, b', [], sb, sb', h, _, _, _ => by simp at h
  | (d, n) :: a, b, b', s :: sa, sb, sb', h, h1, h2, h3 => by
    obtain ⟨g1, g2, g3⟩ := h1
    refine ⟨g1, (?_ : reach (a ++ b') (sa ++ sb') < s), inMemoryOrder_replace a b b' sa sb sb' (by simpa using h) g3 h2 h3⟩
    replace g2 : reach (a ++ b) (sa ++ sb) < s := g2
    rw [reach_append a b sa sb (by simpa using h)] at g2
    rw [reach_append a b' sa sb' (by simpa using h)]
    omega

/-- **C64** (slices): slices of variables in memory order are in memory order, so that
`C64_assign_partial` applies to anything obtained by slicing. -/
theorem C64_slices_in_order (v v' : View) (p : Slice) (hw : v.WF) (hp : p.Constructed)
    (hm : InMemoryOrder v.dims v.strides) (h : v.slice p = .ok v') : InMemoryOrder v'.dims v'.strides := by
  obtain ⟨d, b, e, st⟩ := p
  obtain ⟨h0, hst, hse⟩ := hp.spec
  simp only at h0 hst hse
  obtain ⟨n, hmem, hle⟩ := (Props.C04_slice_accepts_iff v _ hw hp).1.1 ⟨v', h⟩
  simp only at hmem hle
  obtain ⟨pre, n', post, spre, x, spost, hv', h1, h2, h3⟩ := View.split hw.2.1 (mem_labels hmem)
  have hn' : n' = n := by
    have := at?_of_mem hw.1.1 hmem
    rw [hv'] at this
    simp only [at?_mid h1] at this
    injection this
  subst hn'
  rw [hv'] at hm h
  simp only at hm
  have hmid := inMemoryOrder_append pre ((d, n') :: post) spre (x :: spost) h2 hm
  obtain ⟨m1, m2, m3⟩ := hmid
  by_cases he : e = -1
  · subst he
    rw [if_pos rfl] at hle
    rw [View.slice_point_eq h1 h2 h0 hle] at h
    injection h with h
    subst h
    refine inMemoryOrder_replace pre ((d, n') :: post) post spre (x :: spost) spost h2 hm m3 ?_
    simp only [reach]
    have := Int.mul_nonneg (show 0 ≤ n' - 1 by omega) (le_of_lt m1)
    omega
  · rw [if_neg he] at hle
    have hbe := hse.resolve_left he
    rw [View.slice_range_eq h1 h2 h0 hbe hst hle] at h
    injection h with h
    subst h
    obtain ⟨s1, s2⟩ := sliceExtent_spec hst hbe
    have hmul : x ≤ x * st := by
      have := Int.mul_le_mul_of_nonneg_left (show 1 ≤ st by omega) (le_of_lt m1)
      omega
    refine inMemoryOrder_replace pre ((d, n') :: post) _ spre (x :: spost) _ h2 hm ⟨by omega, by omega, m3⟩ ?_
    simp only [reach]
    have hle2 : (sliceExtent b e st - 1) * (x * st) ≤ (n' - 1) * x := by
      rcases Int.lt_or_le (sliceExtent b e st) 1 with hz | hz
      · have hz' : sliceExtent b e st = 0 := by omega
        rw [hz']
        have hn0 : 0 ≤ n' := by omega
        have := Int.mul_nonneg hn0 (le_of_lt m1)
        have e1 : (n' - 1) * x = n' * x - x := by ring
        have e2 : (0 - 1) * (x * st) = -(x * st) := by ring
        rw [e1, e2]
        omega
      · have := (s2 (sliceExtent b e st - 1) (by omega)).1 (by omega)
        have h5 : (sliceExtent b e st - 1) * st ≤ n' - 1 := by omega
        have := Int.mul_le_mul_of_nonneg_right h5 (le_of_lt m1)
        calc (sliceExtent b e st - 1) * (x * st) = (sliceExtent b e st - 1) * st * x := by ring
          _ ≤ (n' - 1) * x := this
    omega

theorem volume_pos_of_pos : ∀ {ds : Dims}, (∀ p ∈ ds, 0 < p.2) → 0 < Dims.volume ds
  | [], _ => by simp
  | p :: ds, h => by
    rw [volume_cons]
    exact Int.mul_pos (h p (by simp)) (volume_pos_of_pos fun q hq => h q (List.mem_cons_of_mem _ hq))

/-- New variables are in memory order. -/
theorem C64_fresh_in_order (ds : Dims) (h : ∀ p ∈ ds, 0 < p.2) :
    InMemoryOrder (View.fresh ds).dims (View.fresh ds).strides := by
  have key : ∀ ds : Dims, (∀ p ∈ ds, 0 < p.2) → InMemoryOrder ds (rowMajor (shape ds)) ∧
      reach ds (rowMajor (shape ds)) = Dims.volume ds - 1 := by
    intro ds
    induction ds with
    | nil => intro _; simp [InMemoryOrder, reach]
    | cons p ds ih =>
      intro h
      obtain ⟨i1, i2⟩ := ih (fun q hq => h q (List.mem_cons_of_mem _ hq))
      have hv : 0 < Dims.volume ds := volume_pos_of_pos (fun q hq => h q (List.mem_cons_of_mem _ hq))
      rw [shape_cons, rowMajor_shape_cons]
      refine ⟨⟨hv, by rw [i2]; omega, i1⟩, ?_⟩
      simp only [reach, i2, volume_cons]
      ring
  exact (key ds h).1

/-- **C64** is false for transposed variables, among them matrices, whose elements are stored by
columns: setting all rows of a matrix to its second column, `m.value =
np.broadcast_to(m.value[:, 1], (3, 3))`. The end iterator of the target is three elements after its
begin, so that the array, which starts there, is taken not to overlap; the first element of the
column is overwritten before it is read for the second row. -/
theorem C64_wrong_for_transposed :
    let m : View := ⟨[(Dim.structureColumn, 3), (Dim.structureRow, 3)], [1, 3], 0, false⟩
    let a : NpArray := ⟨3, [3, 3], [0, 1]⟩
    let order := [(0, 0), (0, 1), (0, 2), (0, 3), (0, 4), (0, 5), (0, 6), (0, 7), (0, 8)]
    m.WF ∧ m.Distinct ∧ Processed 9 order ∧
    ∃ mem', copyArrayIntoView a (targetOf m) (fun x => x) order = .ok mem' ∧
      mem' (m.addr (fun d => if d = Dim.structureColumn then 1 else 0)) = 4 ∧
      ¬ ArrayAssigned m a (fun x => x) mem' := by
  refine ⟨?_, ?_, ?_, ?_⟩
  · simp [View.WF, Sizes.WF, Dim.structureColumn, Dim.structureRow]
  · intro c c' hc hc' he d hd
    have a1 := hc Dim.structureColumn 3 (by simp)
    have a2 := hc Dim.structureRow 3 (by simp)
    have b1 := hc' Dim.structureColumn 3 (by simp)
    have b2 := hc' Dim.structureRow 3 (by simp)
    simp only [View.addr, addrAux] at he
    simp only [labels_cons, labels_nil, List.mem_cons, List.not_mem_nil, or_false] at hd
    rcases hd with rfl | rfl <;> omega
  · refine ⟨by decide, by decide⟩
  · refine ⟨_, rfl, by decide, ?_⟩
    intro h
    have := h.1 (fun d => if d = Dim.structureColumn then 1 else 0) (by
      intro d n hm
      simp only [List.mem_cons, Prod.mk.injEq, List.not_mem_nil, or_false] at hm
      rcases hm with ⟨rfl, rfl⟩ | ⟨rfl, rfl⟩ <;> decide)
    revert this
    decide

/-! ### Examples -/

/-- Reversing a row of a 2-by-3 variable in place, `x['y', 1].values = x.values[1, ::-1]`. -/
example : ∃ mem', copyArrayIntoView ⟨5, [3], [-1]⟩ (targetOf ⟨[(2, 3)], [1], 3, false⟩) (fun x => x) [(0, 0), (2, 2), (0, 1)] =
    .ok mem' ∧ ArrayAssigned ⟨[(2, 3)], [1], 3, false⟩ ⟨5, [3], [-1]⟩ (fun x => x) mem' :=
  C64_assign_partial _ _ _ _ (by simp [View.WF, Sizes.WF]) (by simp [InMemoryOrder, reach]) (by decide) rfl rfl
    ⟨by decide, by decide⟩

example : ∃ mem', copyArrayIntoView ⟨5, [3], [-1]⟩ (targetOf ⟨[(2, 3)], [1], 3, false⟩) (fun x => x) [(0, 0), (2, 2), (0, 1)] =
    .ok mem' ∧ mem' 3 = 5 ∧ mem' 4 = 4 ∧ mem' 5 = 3 ∧ mem' 2 = 2 ∧ mem' 6 = 6 := ⟨_, rfl, by decide⟩

/-- A slice of every second column of a 2-by-5 variable, assigned its transposed neighbour. -/
example : InMemoryOrder [(3, 2), (2, 2)] [5, 2] ∧ ¬ InMemoryOrder [(2, 2), (3, 2)] [2, 5] := by
  simp [InMemoryOrder, reach]

example : ∃ mem', copyArrayIntoView ⟨100, [3, 2], [1, 3]⟩ (targetOf ⟨[(2, 3), (3, 2)], [1, 3], 0, false⟩) (fun x => x)
      [(0, 0), (0, 1), (2, 2), (2, 3), (4, 4), (4, 5)] = .ok mem' ∧ mem' 0 = 100 ∧ mem' 3 = 103 ∧ mem' 5 = 105 :=
  ⟨_, rfl, by decide⟩

example : copyArrayIntoView ⟨0, [3, 2], [2, 1]⟩ (targetOf ⟨[(2, 2), (3, 3)], [3, 1], 10, false⟩) (fun x => x) [] =
    .error .dimension := C64_shape_checked _ _ _ _ (by decide)

/-- Seven dims that are not contiguous are rejected. -/
example : (copyArrayIntoView ⟨100, [1, 1, 1, 1, 1, 1, 2], [1, 1, 1, 1, 1, 1, 3]⟩
      (targetOf ⟨[(1, 1), (2, 1), (3, 1), (4, 1), (5, 1), (6, 1), (7, 2)], [2, 2, 2, 2, 2, 2, 1], 0, false⟩)
      (fun x => x) [(0, 0), (0, 1)]).isOk = false := by decide

end Scipp.Props
