import Verif.Lemmas.Concat2
namespace Scipp.Concat
open Scipp Scipp.Sizes
variable {V : Type}

theorem filter_ne_self {dim : Dim} {l : Dims} (h : dim ∉ labels l) : otherDims dim l = l := by
  unfold otherDims
  rw [List.filter_eq_self]
  intro p hp
  simp only [ne_eq, decide_not, Bool.not_eq_true', decide_eq_false_iff_not]
  intro hc
  exact h (hc ▸ List.mem_map_of_mem hp)

theorem otherDims_mid {pre post : Dims} {dim : Dim} {n : Int} (hpre : dim ∉ labels pre) (hpost : dim ∉ labels post) :
    otherDims dim (pre ++ (dim, n) :: post) = pre ++ post := by
  have h1 := filter_ne_self hpre
  have h2 := filter_ne_self hpost
  unfold otherDims at h1 h2 ⊢
  rw [List.filter_append, h1, List.filter_cons_of_neg (by simp), h2]

theorem erase_other {s S : Dims} {dim : Dim} (hn : (labels s).Nodup) (h : Sizes.erase s dim = .ok S) : S = otherDims dim s := by
  by_cases hm : dim ∈ labels s
  · obtain ⟨pre, n, post, rfl, hpre⟩ := split_label hm
    rw [erase_mid hpre] at h
    rw [← Except.ok.inj h, otherDims_mid hpre]
    intro hc
    simp only [labels, List.map_append, List.map_cons] at hn
    have := (List.nodup_append.1 hn).2.1
    exact (List.nodup_cons.1 this).1 hc
  · exfalso
    clear hn
    induction s generalizing S with
    | nil => cases h
    | cons p s ih =>
      obtain ⟨k, v⟩ := p
      simp only [labels, List.map_cons, List.mem_cons, not_or] at hm
      rw [Sizes.erase, if_neg (fun hk => hm.1 hk.symm)] at h
      cases h1 : Sizes.erase s dim with
      | error e => rw [h1] at h; cases h
      | ok S' => exact ih h1 hm.2

theorem resize_other {s S : Dims} {dim : Dim} {x : Int} (hn : (labels s).Nodup) (hm : dim ∈ labels s) (h : resize s dim x = .ok S) :
    otherDims dim S = otherDims dim s := by
  unfold resize at h
  split at h
  · cases h
  · obtain ⟨pre, n, post, rfl, hpre⟩ := split_label hm
    rw [assign_mid hpre] at h
    have hpost : dim ∉ labels post := by
      intro hc
      simp only [labels, List.map_append, List.map_cons] at hn
      have := (List.nodup_append.1 hn).2.1
      exact (List.nodup_cons.1 this).1 hc
    rw [← Except.ok.inj h, otherDims_mid hpre hpost, otherDims_mid hpre hpost]

theorem erase_exists {s : Dims} {dim : Dim} (hm : dim ∈ labels s) : ∃ S, Sizes.erase s dim = .ok S := by
  obtain ⟨pre, n, post, rfl, hpre⟩ := split_label hm
  exact ⟨_, erase_mid hpre⟩

theorem point_slice_exists {x : CVar V} {dim : Dim} {k : Int} (hx : x.arr.Ok) (hm : dim ∈ labels x.dims) (hk : 0 ≤ k) (hk' : k < extentOf x.dims dim) :
    ∃ y, x.slice ⟨dim, k, -1, 1⟩ = .ok y ∧ y.dims = otherDims dim x.dims := by
  have hne : (⟨dim, k, -1, 1⟩ : Slice) ≠ Slice.none := by
    intro hc
    have := congrArg Slice.start hc
    simp only [Slice.none] at this
    omega
  obtain ⟨n, hn⟩ := at?_ok_of_mem_labels hm
  have hnm := at?_ok_mem hn
  have hv : validSlice x.dims ⟨dim, k, -1, 1⟩ = .ok () := by
    refine (validSlice_iff hne hx.wf.1).2 ⟨n, hnm, ?_⟩
    rw [extentOf_mem hx.wf.1 hnm] at hk'
    simp
    omega
  obtain ⟨S, hS⟩ := erase_exists hm
  have hs : Sizes.slice x.dims ⟨dim, k, -1, 1⟩ = .ok S := by
    unfold Sizes.slice
    rw [hv]
    show (if _ then _ else _) = _
    rw [if_neg hne, if_neg (by simp [Slice.isRange])]
    exact hS
  refine ⟨⟨⟨S, fun c => x.arr.val (upd c dim k)⟩, x.unit, x.kind⟩, ?_, erase_other hx.wf.1 hS⟩
  unfold CVar.slice
  rw [hs]
  rfl

theorem lastSlice_exists {x : CVar V} {dim : Dim} (hx : x.arr.Ok) (hm : dim ∈ labels x.dims) (h1 : 1 ≤ extentOf x.dims dim) :
    ∃ y, lastSlice x dim = .ok y ∧ y.dims = otherDims dim x.dims := by
  obtain ⟨n, hn⟩ := at?_ok_of_mem_labels hm
  have he : extentOf x.dims dim = _ := extentOf_at? hx.wf.1 hn
  obtain ⟨y, hy, hd⟩ := point_slice_exists hx hm (k := n - 1) (by omega) (by omega)
  refine ⟨y, ?_, hd⟩
  unfold lastSlice
  rw [hn]
  simp only [Slice.point]
  rw [if_neg (by omega)]
  exact hy

theorem tailSlice_exists {x : CVar V} {dim : Dim} (hx : x.arr.Ok) (hm : dim ∈ labels x.dims) (h1 : 1 ≤ extentOf x.dims dim) :
    ∃ y, tailSlice x dim = .ok y ∧ otherDims dim y.dims = otherDims dim x.dims := by
  obtain ⟨n, hn⟩ := at?_ok_of_mem_labels hm
  have he : extentOf x.dims dim = _ := extentOf_at? hx.wf.1 hn
  obtain ⟨m, rfl⟩ : ∃ m, n = 1 + m := ⟨n - 1, by omega⟩
  obtain ⟨S, s1, s2, s3⟩ := slice_range_ok (b := 1) (n := m) hx.wf (at?_ok_mem hn) (by omega) (by omega) (le_refl _)
  refine ⟨⟨⟨S, fun c => x.arr.val (upd c dim (1 + c dim * 1))⟩, x.unit, x.kind⟩, ?_, resize_other hx.wf.1 hm s3⟩
  unfold tailSlice
  rw [hn]
  simp only [s1]
  unfold CVar.slice
  rw [s2]
  dsimp only
  rw [if_neg (by omega)]

/-- The comparison of adjacent edges. -/
theorem joinTail_exists {eq : V → V → Bool} {dim : Dim} {O : Dims} {u k : Nat} : ∀ (xs : List (CVar V)) (back x0 : CVar V),
    (∀ x ∈ back :: x0 :: xs, x.arr.Ok ∧ dim ∈ labels x.dims ∧ otherDims dim x.dims = O ∧ x.unit = u ∧ x.kind = k) →
    (∀ x ∈ x0 :: xs, 2 ≤ extentOf x.dims dim) → 1 ≤ extentOf back.dims dim →
    (∀ c, back.arr.val (upd c dim (extentOf back.dims dim - 1)) = x0.arr.val (upd c dim (extentOf x0.dims dim - 1))) →
    AdjacentMatch eq (x0 :: xs) dim → ∃ ts, joinTail eq dim back xs = .ok ts
  | [], _, _, _, _, _, _, _ => ⟨[], rfl⟩
  | x :: xs, back, x0, hall, hext, hb1, hbv, hadj => by
    obtain ⟨b1, b2, b3, b4, b5⟩ := hall back (by simp)
    obtain ⟨x1, x2, x3, x4, x5⟩ := hall x (by simp)
    obtain ⟨z1, z2, z3, z4, z5⟩ := hall x0 (by simp)
    have hx2 := hext x (by simp)
    have hz2 := hext x0 (by simp)
    obtain ⟨l, l1, l2⟩ := lastSlice_exists b1 b2 hb1
    obtain ⟨f, f1, f2⟩ := point_slice_exists x1 x2 (le_refl 0) (by omega)
    obtain ⟨t, t1, t2⟩ := tailSlice_exists x1 x2 (by omega)
    obtain ⟨lo, lm, lv, _, _, lu, lk⟩ := lastSlice_ok b1 l1
    obtain ⟨fo, fm, fv, _, _, fu, fk⟩ := point_slice_ok x1 (le_refl 0) f1
    obtain ⟨to', tm, tv, te, tl, tu, tk⟩ := tailSlice_ok x1 t1
    have heq : l.equal eq f = true := by
      refine equal_intro lo (by rw [lu, fu, b4, x4]) (by rw [l2, f2, b3, x3]) (by rw [lk, fk, b5, x5]) (fun c hc => ?_)
      have hin : InDims x0.dims (upd c dim (extentOf x0.dims dim - 1)) := by
        intro d n hd
        unfold upd
        by_cases hdd : d = dim
        · rw [if_pos hdd]
          subst hdd
          rw [extentOf_mem z1.wf.1 hd] at hz2 ⊢
          omega
        · rw [if_neg hdd]
          refine hc d n ?_
          rw [l2, b3, ← z3]
          unfold otherDims
          rw [List.mem_filter]
          exact ⟨hd, by simpa using hdd⟩
      have := hadj 0 x0 x rfl rfl _ hin (upd_same _ _ _)
      rw [lv, fv, hbv]
      have e1 : upd (upd c dim (extentOf x0.dims dim - 1)) dim 0 = upd c dim 0 := by
        funext d; unfold upd; split <;> rfl
      rw [e1] at this
      exact this
    obtain ⟨ts, hts⟩ := joinTail_exists (eq := eq) (dim := dim) (O := O) (u := u) (k := k) xs t x (by
      intro y hy
      rcases List.mem_cons.1 hy with rfl | hy
      · exact ⟨to', tl, by rw [t2, x3], by rw [tu, x4], by rw [tk, x5]⟩
      · exact hall y (List.mem_cons_of_mem _ (List.mem_cons_of_mem _ hy))) (fun y hy => hext y (List.mem_cons_of_mem _ hy)) (by omega) (by
      intro c
      rw [tv, te, upd_same]
      refine congrArg x.arr.val ?_
      funext d
      unfold upd
      by_cases hd : d = dim
      · rw [if_pos hd, if_pos hd]; omega
      · rw [if_neg hd, if_neg hd, if_neg hd]) (by
      intro i p q hp hq
      exact hadj (i + 1) p q (by simpa using hp) (by simpa using hq))
    refine ⟨t :: ts, ?_⟩
    unfold joinTail
    rw [l1]
    simp only
    unfold firstSlice
    rw [f1]
    simp only
    rw [if_neg (by rw [heq]; decide), t1]
    simp only [hts]

theorem joinEdges_exists {junk : V} {eq : V → V → Bool} {dim : Dim} {O : Dims} {u k : Nat} {vars : List (CVar V)} (hne : vars ≠ [])
    (hdim : dim ≠ Dim.invalid)
    (hall : ∀ x ∈ vars, x.arr.Ok ∧ dim ∈ labels x.dims ∧ otherDims dim x.dims = O ∧ x.unit = u ∧ x.kind = k)
    (hext : ∀ x ∈ vars, 2 ≤ extentOf x.dims dim) (hadj : AdjacentMatch eq vars dim) : ∃ r, joinEdges junk eq vars dim = .ok r := by
  cases vars with
  | nil => exact absurd rfl hne
  | cons x0 xs =>
    obtain ⟨ts, hts⟩ := joinTail_exists xs x0 x0 (by
      intro x hx
      rcases List.mem_cons.1 hx with rfl | hx
      · exact hall x (by simp)
      · exact hall x hx) hext (by have := hext x0 (by simp); omega) (fun c => rfl) hadj
    simp only [joinEdges, hts]
    obtain ⟨j1, j2⟩ := joinTail_ok xs x0 ts hts
    have key : ∀ y ∈ x0 :: ts, y.arr.Ok ∧ SameOther dim y.dims x0.dims ∧ y.unit = u ∧ y.kind = k := by
      intro y hy
      obtain ⟨a1, a2, a3, a4, a5⟩ := hall x0 (by simp)
      rcases List.mem_cons.1 hy with rfl | hy
      · exact ⟨a1, fun p _ => Iff.rfl, a4, a5⟩
      · obtain ⟨i, hi, hit⟩ := List.getElem_of_mem hy
        obtain ⟨b, t', l, f, g1, g2, g3, g4, g5, g6⟩ := j2 i xs[i] (List.getElem?_eq_getElem (by omega))
        rw [List.getElem?_eq_getElem hi, Option.some.injEq, hit] at g2
        subst g2
        obtain ⟨q1, q2, q3, q4, q5⟩ := hall xs[i] (by simp)
        obtain ⟨t1, t2, t3, t4, t5, t6, t7⟩ := tailSlice_ok q1 g6
        refine ⟨t1, fun p hp => ?_, by rw [t6, q4], by rw [t7, q5]⟩
        rw [t2 p hp]
        have hmem : ∀ D : Dims, p ∈ D ↔ p ∈ otherDims dim D := by
          intro D
          unfold otherDims
          rw [List.mem_filter]
          constructor
          · exact fun h => ⟨h, by simpa using hp⟩
          · exact fun h => h.1
        rw [hmem x0.dims, hmem xs[i].dims, a3, q3]
    exact concat_exists (fun x hx => (key x hx).1) (by simp) hdim (O := x0.dims) (fun x hx => (key x hx).2.1) (u := u) (k := k)
      (fun x hx => (key x hx).2.2)

theorem joinEdges_adjacent {junk : V} {eq : V → V → Bool} {dim : Dim} {vars : List (CVar V)} {r : CVar V}
    (hv : ∀ x ∈ vars, x.arr.Ok) (h : joinEdges junk eq vars dim = .ok r) : AdjacentMatch eq vars dim := by
  cases vars with
  | nil => cases h
  | cons x0 xs =>
    simp only [joinEdges] at h
    cases h1 : joinTail eq dim x0 xs with
    | error e => simp only [h1] at h; cases h
    | ok ts =>
      obtain ⟨j1, j2⟩ := joinTail_ok xs x0 ts h1
      intro i x y hx hy c hc hcd
      have hy' : xs[i]? = some y := by simpa using hy
      obtain ⟨b, t, l, f, g1, g2, g3, g4, g5, g6⟩ := j2 i y hy'
      have hyo := hv y (List.mem_of_getElem? hy)
      have hxo := hv x (List.mem_of_getElem? hx)
      have hb : b.arr.Ok ∧ (∀ p, p.1 ≠ dim → (p ∈ b.dims ↔ p ∈ x.dims)) ∧ (1 ≤ extentOf b.dims dim →
          ∀ c, b.arr.val (upd c dim (extentOf b.dims dim - 1)) = x.arr.val (upd c dim (extentOf x.dims dim - 1))) := by
        cases i with
        | zero =>
          simp only [List.getElem?_cons_zero, Option.some.injEq] at hx g1
          subst hx; subst g1
          exact ⟨hxo, fun p _ => Iff.rfl, fun _ c => rfl⟩
        | succ i =>
          have hx' : xs[i]? = some x := by simpa using hx
          obtain ⟨b', t', l', f', k1, k2, k3, k4, k5, k6⟩ := j2 i x hx'
          have g1' : ts[i]? = some b := by simpa using g1
          rw [k2, Option.some.injEq] at g1'
          subst g1'
          obtain ⟨t1, t2, t3, t4, t5, t6⟩ := tailSlice_ok hxo k6
          refine ⟨t1, t2, fun _ c => ?_⟩
          rw [t3, t4, upd_same]
          refine congrArg x.arr.val ?_
          funext d
          unfold upd
          by_cases hd : d = dim
          · rw [if_pos hd, if_pos hd]; omega
          · rw [if_neg hd, if_neg hd, if_neg hd]
      obtain ⟨b1, b2, b3⟩ := hb
      obtain ⟨lo, lm, lv, le, _, lu, lk⟩ := lastSlice_ok b1 g3
      obtain ⟨fo, fm, fv, _, _, fu, fk⟩ := point_slice_ok hyo (le_refl 0) g4
      obtain ⟨_, _, _, q⟩ := equal_ok lo fo g5
      have hlc : InDims l.dims c := by
        intro d n hd
        have h2 := (lm _).1 hd
        exact hc d n ((b2 _ h2.2).1 h2.1)
      have := q c hlc
      rw [lv, fv, b3 le] at this
      rw [← hcd] at this
      rwa [show upd c dim (c dim) = c from by
        funext d; unfold upd; by_cases hd : d = dim
        · rw [if_pos hd, hd]
        · rw [if_neg hd]] at this

end Scipp.Concat
