import Verif.Spec.SubbinSizes
import Mathlib.Tactic.Ring
import Mathlib.Tactic.Set
import Mathlib.Data.Int.Order.Basic
namespace Scipp
namespace SubbinSizes

theorem vecGet_nat {α : Type} (v : List α) (n : Nat) : vecGet v (n : Int) = v[n]? := by
  simp [vecGet]

theorem vecSet_nat {α : Type} {v : List α} {n : Nat} (h : n < v.length) (x : α) :
    vecSet v (n : Int) x = some (v.set n x) := by
  have : ¬ ((n : Int) < 0 ∨ (v.length : Int) ≤ n) := by omega
  simp only [vecSet, if_neg this, Int.toNat_natCast]

theorem getD_set (l : List Int) (n j : Nat) (x : Int) (h : n < l.length) :
    (l.set n x).getD j 0 = if j = n then x else l.getD j 0 := by
  simp only [List.getD_eq_getElem?_getD, List.getElem?_set]
  by_cases e : n = j
  · subst e; simp [h]
  · simp [e, Ne.symm e]

theorem opLoop_ok (op : Int → Int → Int) (hop : ∀ y, op y 0 = y) : ∀ (xs m : List Int) (n : Nat),
    n + xs.length ≤ m.length → ∃ m', opLoop op m n xs = .ok m' ∧ m'.length = m.length ∧
      ∀ j, m'.getD j 0 = if n ≤ j then op (m.getD j 0) (xs.getD (j - n) 0) else m.getD j 0
  | [], m, n, _ => ⟨m, rfl, rfl, by intro j; simp [hop]⟩
  | x :: xs, m, n, h => by
    simp only [List.length_cons] at h
    have hn : n < m.length := by omega
    obtain ⟨m', h1, h2, h3⟩ := opLoop_ok op hop xs (m.set n (op m[n] x)) (n + 1) (by simp; omega)
    refine ⟨m', ?_, by simpa using h2, ?_⟩
    · simp only [opLoop, vecGet_nat, List.getElem?_eq_getElem hn, vecSet_nat hn]
      exact_mod_cast h1
    · intro j
      rw [h3 j, getD_set _ _ _ _ hn]
      by_cases e1 : j = n
      · subst e1
        simp [hn]
      · by_cases e2 : n ≤ j
        · obtain ⟨d, rfl⟩ : ∃ d, j = n + 1 + d := ⟨j - (n + 1), by omega⟩
          have e3 : n + 1 + d - n = d + 1 := by omega
          rw [if_pos (by omega), if_pos e2, if_neg e1, e3]
          simp
        · rw [if_neg (by omega), if_neg e2, if_neg e1]

theorem getD_replicate (n j : Nat) : (List.replicate n (0 : Int)).getD j 0 = 0 := by
  simp [List.getD_eq_getElem?_getD, List.getElem?_replicate]
  split <;> rfl

theorem getD_append_replicate (l : List Int) (n j : Nat) :
    (l ++ List.replicate n (0 : Int)).getD j 0 = l.getD j 0 := by
  simp only [List.getD_eq_getElem?_getD, List.getElem?_append]
  split
  · rfl
  · next h =>
    rw [List.getElem?_eq_none (l := l) (by omega)]
    simp [List.getElem?_replicate]
    split <;> rfl

theorem binary_ok (op : Int → Int → Int) (hop : ∀ y, op y 0 = y) (a b : SubbinSizes) (ha : 0 ≤ a.offset)
    (hb : 0 ≤ b.offset) : ∃ r, binary op a b = .ok r ∧ r.offset = min a.offset b.offset ∧
      r.stop = max a.stop b.stop ∧ ∀ p, r.val p = op (a.val p) (b.val p) := by
  obtain ⟨ao, as⟩ := a
  obtain ⟨bo, bs⟩ := b
  simp only at ha hb
  obtain ⟨na, hna⟩ : ∃ n : Nat, (n : Int) = ao - min ao bo := ⟨(ao - min ao bo).toNat, by omega⟩
  obtain ⟨nb, hnb⟩ : ∃ n : Nat, (n : Int) = bo - min ao bo := ⟨(bo - min ao bo).toNat, by omega⟩
  obtain ⟨m1, h1, h2, h3⟩ := opLoop_ok (· + ·) (by simp) as
    (List.replicate (max (ao + as.length) (bo + bs.length) - min ao bo).toNat 0) na (by simp; omega)
  obtain ⟨m2, h4, h5, h6⟩ := opLoop_ok op hop bs m1 nb (by rw [h2]; simp; omega)
  refine ⟨⟨min ao bo, m2⟩, ?_, rfl, ?_, ?_⟩
  · have : ¬ min ao bo < 0 := by omega
    rw [hna] at h1
    rw [hnb] at h4
    simp only [binary, h1, h4, bind, Except.bind, mk', if_neg this]
  · simp only [stop, h5, h2, List.length_replicate]
    omega
  · intro p
    simp only [val]
    by_cases hp : min ao bo ≤ p
    · rw [if_pos hp, h6, h3, getD_replicate]
      obtain ⟨q, hq⟩ : ∃ q : Nat, (q : Int) = p - min ao bo := ⟨(p - min ao bo).toNat, by omega⟩
      have hq' : (p - min ao bo).toNat = q := by omega
      rw [hq']
      have hA : (if na ≤ q then 0 + as.getD (q - na) 0 else 0) =
          if ao ≤ p then as.getD (p - ao).toNat 0 else 0 := by
        by_cases e : na ≤ q
        · rw [if_pos e, if_pos (by omega)]
          have : q - na = (p - ao).toNat := by omega
          rw [this]; ring
        · rw [if_neg e, if_neg (by omega)]
      rw [hA]
      by_cases e : nb ≤ q
      · rw [if_pos e, if_pos (by omega : bo ≤ p)]
        have : q - nb = (p - bo).toNat := by omega
        rw [this]
      · rw [if_neg e, if_neg (by omega : ¬ bo ≤ p), hop]
    · rw [if_neg hp, if_neg (by omega), if_neg (by omega), hop]

theorem addAssign_ok (a b : SubbinSizes) (ha : 0 ≤ a.offset) (hb : 0 ≤ b.offset) :
    ∃ r, addAssign a b = .ok r ∧ r.offset = min a.offset b.offset ∧ r.stop = max a.stop b.stop ∧
      ∀ p, r.val p = a.val p + b.val p := by
  obtain ⟨ao, as⟩ := a
  obtain ⟨bo, bs⟩ := b
  simp only at ha hb
  by_cases hlt : bo < ao
  · simp only [addAssign, if_pos hlt]
    exact binary_ok (· + ·) (by simp) _ _ ha hb
  · obtain ⟨n, hn⟩ : ∃ n : Nat, (n : Int) = bo - ao := ⟨(bo - ao).toNat, by omega⟩
    set m := if (as.length : Int) < bo - ao + bs.length then
      as ++ List.replicate ((bo - ao + bs.length).toNat - as.length) 0 else as with hm
    have hlen : m.length = max as.length (n + bs.length) := by
      rw [hm]
      split
      · simp; omega
      · omega
    have hget : ∀ j, m.getD j 0 = as.getD j 0 := by
      intro j
      rw [hm]
      split
      · exact getD_append_replicate _ _ _
      · rfl
    obtain ⟨m', h1, h2, h3⟩ := opLoop_ok (· + ·) (by simp) bs m n (by omega)
    refine ⟨⟨ao, m'⟩, ?_, ?_, ?_, ?_⟩
    · rw [hn] at h1
      simp only [addAssign, if_neg hlt, bind, Except.bind, pure, Except.pure, ← hm, h1]
    · simp; omega
    · simp only [stop, h2, hlen]; omega
    · intro p
      simp only [val]
      by_cases hp : ao ≤ p
      · rw [if_pos hp, if_pos hp, h3, hget]
        obtain ⟨q, hq⟩ : ∃ q : Nat, (q : Int) = p - ao := ⟨(p - ao).toNat, by omega⟩
        have hq' : (p - ao).toNat = q := by omega
        rw [hq']
        by_cases e : n ≤ q
        · rw [if_pos e, if_pos (by omega)]
          have : q - n = (p - bo).toNat := by omega
          rw [this]
        · rw [if_neg e, if_neg (by omega)]; ring
      · rw [if_neg hp, if_neg hp, if_neg (by omega)]; rfl

theorem intersectLoop_ok : ∀ (xs m : List Int) (n : Nat),
    ∃ m', intersectLoop m n xs = .ok m' ∧ m'.length = m.length ∧
      ∀ j, j < m.length → m'.getD j 0 = if n ≤ j then m.getD j 0 + xs.getD (j - n) 0 else m.getD j 0
  | [], m, n => ⟨m, rfl, rfl, by intro j _; simp⟩
  | x :: xs, m, n => by
    by_cases hn : n < m.length
    · obtain ⟨m', h1, h2, h3⟩ := intersectLoop_ok xs (m.set n (m[n] + x)) (n + 1)
      refine ⟨m', ?_, by simpa using h2, ?_⟩
      · have : (n : Int) < m.length := by omega
        simp only [intersectLoop, if_pos this, vecGet_nat, List.getElem?_eq_getElem hn, vecSet_nat hn]
        exact_mod_cast h1
      · intro j hj
        rw [h3 j (by simpa using hj), getD_set _ _ _ _ hn]
        by_cases e1 : j = n
        · subst e1
          simp [hn]
        · by_cases e2 : n ≤ j
          · obtain ⟨d, rfl⟩ : ∃ d, j = n + 1 + d := ⟨j - (n + 1), by omega⟩
            have e3 : n + 1 + d - n = d + 1 := by omega
            rw [if_pos (by omega), if_pos e2, if_neg e1, e3]
            simp
          · rw [if_neg (by omega), if_neg e2, if_neg e1]
    · refine ⟨m, ?_, rfl, ?_⟩
      · have : ¬ (n : Int) < m.length := by omega
        simp only [intersectLoop, if_neg this]
      · intro j hj
        rw [if_neg (by omega)]

theorem addIntersection_ok (a b : SubbinSizes) :
    ∃ r, addIntersection a b = .ok r ∧ r.offset = a.offset ∧ r.stop = a.stop ∧
      ∀ p, a.offset ≤ p → p < a.stop → r.val p = a.val p + b.val p := by
  obtain ⟨ao, as⟩ := a
  obtain ⟨bo, bs⟩ := b
  obtain ⟨n, hn⟩ : ∃ n : Nat, (n : Int) = max 0 (bo - ao) := ⟨(max 0 (bo - ao)).toNat, by omega⟩
  obtain ⟨m', h1, h2, h3⟩ := intersectLoop_ok (bs.drop (max 0 (-(bo - ao))).toNat) as n
  refine ⟨⟨ao, m'⟩, ?_, rfl, ?_, ?_⟩
  · rw [hn] at h1
    simp only [addIntersection, bind, Except.bind, pure, Except.pure, h1]
  · simp only [stop, h2]
  · intro p hp hp2
    simp only [stop] at hp hp2
    simp only [val]
    obtain ⟨q, hq⟩ : ∃ q : Nat, (q : Int) = p - ao := ⟨(p - ao).toNat, by omega⟩
    have hq' : (p - ao).toNat = q := by omega
    rw [if_pos hp, if_pos hp, hq', h3 q (by omega)]
    by_cases e : n ≤ q
    · rw [if_pos e, if_pos (by omega)]
      congr 1
      simp only [List.getD_eq_getElem?_getD, List.getElem?_drop]
      congr 2; omega
    · rw [if_neg e, if_neg (by omega)]; ring

theorem cumsumLoop_getD : ∀ (xs : List Int) (c : Int) (j : Nat), j < xs.length →
    (cumsumLoop c xs).getD j 0 = c + (xs.take j).sum
  | [], _, _, h => by simp at h
  | x :: xs, c, 0, _ => by simp [cumsumLoop]
  | x :: xs, c, j + 1, h => by
    have := cumsumLoop_getD xs (c + x) j (by simpa using h)
    simp only [cumsumLoop, List.getD_cons_succ, this, List.take_succ_cons, List.sum_cons]
    ring

theorem cumsumLoop_length : ∀ (xs : List Int) (c : Int), (cumsumLoop c xs).length = xs.length
  | [], _ => rfl
  | x :: xs, c => by simp [cumsumLoop, cumsumLoop_length xs]

theorem total_val (s : SubbinSizes) : ∀ n : Nat, n ≤ s.sizes.length → total s.val s.offset n = (s.sizes.take n).sum
  | 0, _ => by simp [total]
  | n + 1, h => by
    have ih := total_val s n (by omega)
    have hn : n < s.sizes.length := by omega
    simp only [total, List.range_succ, List.map_append, List.sum_append] at ih ⊢
    have e : (s.sizes.take (n + 1)).sum = (s.sizes.take n).sum + s.sizes[n] := by
      rw [List.take_add_one, List.getElem?_eq_getElem hn]
      simp only [Option.toList_some, List.sum_append, List.sum_singleton]
    rw [ih, e]
    simp [val, hn]

theorem foldl_add (l : List Int) : ∀ c : Int, l.foldl (· + ·) c = c + l.sum := by
  induction l with
  | nil => simp
  | cons x l ih => intro c; simp [ih]; ring

theorem val_out (s : SubbinSizes) (p : Int) (h : p < s.offset ∨ s.stop ≤ p) : s.val p = 0 := by
  simp only [val, stop] at *
  split
  · rw [List.getD_eq_getElem?_getD, List.getElem?_eq_none (by omega)]; rfl
  · rfl

theorem val_assign_zero (s : SubbinSizes) (p : Int) : (s.assign 0).val p = 0 := by
  simp only [val, assign, List.getD_eq_getElem?_getD, List.getElem?_map]
  by_cases h : s.offset ≤ p
  · rw [if_pos h]
    cases s.sizes[(p - s.offset).toNat]? <;> rfl
  · rw [if_neg h]

/-- The scan loop: what it reads at index `i` has not been overwritten before. -/
theorem scanLoop_ok (om : List Int) (d : Nat) : ∀ (xs m : List Int) (i : Nat),
    m.length = max om.length i → (∀ j, i ≤ j → m.getD j 0 = om.getD j 0) →
    ∃ m' xs', scanLoop om.length d i m xs = .ok (m', xs') ∧ xs'.length = xs.length ∧
      m'.length = max om.length (i + xs.length) ∧
      (∀ j, j < i → m'.getD j 0 = m.getD j 0) ∧
      (∀ j, j < xs.length → xs'.getD j 0 = om.getD (d + i + j) 0) ∧
      (∀ j, j < xs.length → m'.getD (i + j) 0 = om.getD (d + i + j) 0 + xs.getD j 0)
  | [], m, i, hl, hm => ⟨m, [], rfl, rfl, by simpa using hl, by simp, by simp, by simp⟩
  | x :: xs, m, i, hl, hm => by
    have hprev : scanPrev om.length d i m = .ok (om.getD (d + i) 0) := by
      simp only [scanPrev]
      by_cases h : om.length ≤ d + i
      · rw [if_pos (by omega), List.getD_eq_getElem?_getD, List.getElem?_eq_none (by omega)]; rfl
      · rw [if_neg (by omega)]
        have e : ((d : Int) + (i : Int)) = ((d + i : Nat) : Int) := by omega
        rw [e, vecGet_nat]
        have hlt : d + i < m.length := by omega
        have := hm (d + i) (by omega)
        rw [List.getD_eq_getElem?_getD, List.getElem?_eq_getElem hlt] at this
        rw [List.getElem?_eq_getElem hlt]
        simp only [Option.getD_some] at this
        rw [this]
    set m1 := if om.length ≤ i then m ++ [om.getD (d + i) 0 + x] else m.set i (om.getD (d + i) 0 + x) with hm1
    have hset : scanStore om.length i m (om.getD (d + i) 0 + x) = .ok m1 := by
      rw [hm1]
      simp only [scanStore]
      by_cases h : om.length ≤ i
      · rw [if_pos (by omega), if_pos h]
      · rw [if_neg (by omega), if_neg h, vecSet_nat (by omega)]
    have hl1 : m1.length = max om.length (i + 1) := by
      rw [hm1]; split
      · simp; omega
      · simp; omega
    have hg1 : ∀ j, j ≠ i → m1.getD j 0 = m.getD j 0 := by
      intro j hj
      rw [hm1]; split
      · simp only [List.getD_eq_getElem?_getD, List.getElem?_append]
        split
        · rfl
        · next h => rw [List.getElem?_eq_none (l := m) (by omega), List.getElem?_eq_none (by simp; omega)]
      · rw [getD_set _ _ _ _ (by omega), if_neg hj]
    have hg2 : m1.getD i 0 = om.getD (d + i) 0 + x := by
      rw [hm1]; split
      · have : m.length = i := by omega
        simp [List.getD_eq_getElem?_getD, ← this]
      · rw [getD_set _ _ _ _ (by omega), if_pos rfl]
    obtain ⟨m', xs', h1, h2, h3, h4, h5, h6⟩ := scanLoop_ok om d xs m1 (i + 1) hl1 (by
      intro j hj
      rw [hg1 j (by omega)]
      exact hm j (by omega))
    refine ⟨m', om.getD (d + i) 0 :: xs', ?_, by simp [h2], by rw [h3]; simp; omega, ?_, ?_, ?_⟩
    · simp only [scanLoop]
      rw [hprev]
      simp only [bind, Except.bind]
      rw [hset]
      have e : ((i : Int) + 1) = ((i + 1 : Nat) : Int) := by omega
      simp only [e, h1, pure, Except.pure]
    · intro j hj
      rw [h4 j (by omega), hg1 j (by omega)]
    · intro j hj
      cases j with
      | zero => simp
      | succ j =>
        have := h5 j (by simpa using hj)
        simp only [List.getD_cons_succ, this]
        congr 1; omega
    · intro j hj
      cases j with
      | zero =>
        rw [Nat.add_zero, h4 i (by omega), hg2]; simp
      | succ j =>
        have := h6 j (by simpa using hj)
        have e : i + (j + 1) = i + 1 + j := by omega
        have e2 : d + i + (j + 1) = d + (i + 1) + j := by omega
        rw [e, this, e2]; simp

theorem exclusiveScan_ok (s x : SubbinSizes) (h : s.offset ≤ x.offset) :
    ∃ s' x', exclusiveScan s x = .ok (s', x') ∧ s'.offset = x.offset ∧ s'.stop = x.stop ∧
      x'.offset = x.offset ∧ x'.stop = x.stop ∧
      ∀ p, x.offset ≤ p → p < x.stop → x'.val p = s.val p ∧ s'.val p = s.val p + x.val p := by
  obtain ⟨so, ss⟩ := s
  obtain ⟨xo, xs⟩ := x
  simp only at h
  obtain ⟨d, hd⟩ : ∃ d : Nat, (d : Int) = xo - so := ⟨(xo - so).toNat, by omega⟩
  obtain ⟨m', xs', h1, h2, h3, _, h5, h6⟩ := scanLoop_ok ss d xs ss 0 (by simp) (by simp)
  simp only [Nat.zero_add, Nat.add_zero] at h3 h5 h6
  refine ⟨⟨xo, m'.take xs.length ++ List.replicate (xs.length - m'.length) 0⟩, ⟨xo, xs'⟩, ?_, rfl, ?_, rfl, ?_, ?_⟩
  · rw [hd] at h1
    simp only [exclusiveScan]
    have : ((0 : Nat) : Int) = 0 := rfl
    rw [this] at h1
    rw [h1]
    rfl
  · simp only [stop]; simp; omega
  · simp only [stop, h2]
  · intro p hp hp2
    simp only [stop] at hp hp2
    obtain ⟨q, hq⟩ : ∃ q : Nat, (q : Int) = p - xo := ⟨(p - xo).toNat, by omega⟩
    have hq' : (p - xo).toNat = q := by omega
    have hs : (p - so).toNat = d + q := by omega
    have hso : so ≤ p := by omega
    simp only [val, if_pos hp, if_pos hso, hq', hs]
    refine ⟨h5 q (by omega), ?_⟩
    rw [← h6 q (by omega), getD_append_replicate]
    simp only [List.getD_eq_getElem?_getD, List.getElem?_take]
    rw [if_pos (by omega)]

theorem scanList_ok : ∀ (xs : List SubbinSizes) (acc : SubbinSizes),
    (∀ x ∈ xs, acc.offset ≤ x.offset ∧ acc.stop ≤ x.stop) →
    xs.Pairwise (fun a b => a.offset ≤ b.offset ∧ a.stop ≤ b.stop) →
    ∃ ys, scanList acc xs = .ok ys ∧ ys.length = xs.length ∧
      ∀ i (hi : i < xs.length), ∃ y, ys[i]? = some y ∧ y.offset = xs[i].offset ∧ y.stop = xs[i].stop ∧
        ∀ p, xs[i].offset ≤ p → p < xs[i].stop → y.val p = acc.val p + ((xs.take i).map fun x => x.val p).sum
  | [], acc, _, _ => ⟨[], rfl, rfl, by intro i hi; simp at hi⟩
  | x :: xs, acc, h, hp => by
    obtain ⟨hx1, hx2⟩ := h x (by simp)
    obtain ⟨s', x', h1, h2, h3, h4, h5, h6⟩ := exclusiveScan_ok acc x hx1
    rw [List.pairwise_cons] at hp
    obtain ⟨ys, h7, h8, h9⟩ := scanList_ok xs s' (by
      intro y hy
      rw [h2, h3]
      exact hp.1 y hy) hp.2
    refine ⟨x' :: ys, ?_, by simp [h8], ?_⟩
    · simp only [scanList, h1, h7, bind, Except.bind, pure, Except.pure]
    · intro i hi
      cases i with
      | zero =>
        refine ⟨x', rfl, h4, h5, ?_⟩
        intro p hp1 hp2
        rw [(h6 p hp1 hp2).1]; simp
      | succ i =>
        obtain ⟨y, hy1, hy2, hy3, hy4⟩ := h9 i (by simpa using hi)
        refine ⟨y, by simpa using hy1, hy2, hy3, ?_⟩
        intro p hp1 hp2
        simp only [List.getElem_cons_succ] at hp1 hp2
        rw [hy4 p hp1 hp2]
        have hi' : i < xs.length := by simpa using hi
        have ho := (hp.1 xs[i] (List.getElem_mem _)).1
        have : s'.val p = acc.val p + x.val p := by
          by_cases hlt : p < x.stop
          · exact (h6 p (by omega) hlt).2
          · rw [val_out s' p (by right; omega), val_out acc p (by right; omega), val_out x p (by right; omega)]; rfl
        rw [this]
        simp only [List.take_succ_cons, List.map_cons, List.sum_cons]
        ring

end SubbinSizes
end Scipp
