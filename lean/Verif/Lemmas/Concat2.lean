import Verif.Lemmas.Concat
import Verif.Lemmas.SizedDict2
namespace Scipp.Concat
open Scipp Scipp.Sizes
variable {V : Type}

theorem slice_bounds {s S : Dims} {p : Slice} (hn : (labels s).Nodup) (hne : p ≠ Slice.none) (h : Sizes.slice s p = .ok S) :
    ∃ n, (p.dim, n) ∈ s ∧ (if p.stop < 0 then p.start + 1 else p.stop) ≤ n := by
  unfold Sizes.slice at h
  cases hv : validSlice s p with
  | error e => rw [hv] at h; cases h
  | ok u => exact (validSlice_iff hne hn).1 hv

theorem point_slice_ok {x y : CVar V} {dim : Dim} {k : Int} (hx : x.arr.Ok) (hk : 0 ≤ k) (h : x.slice ⟨dim, k, -1, 1⟩ = .ok y) :
    y.arr.Ok ∧ (∀ p, p ∈ y.dims ↔ p ∈ x.dims ∧ p.1 ≠ dim) ∧ (∀ c, y.arr.val c = x.arr.val (upd c dim k)) ∧
      k < extentOf x.dims dim ∧ dim ∈ labels x.dims ∧ y.unit = x.unit ∧ y.kind = x.kind := by
  unfold CVar.slice at h
  cases h1 : Sizes.slice x.dims ⟨dim, k, -1, 1⟩ with
  | error e => rw [h1] at h; cases h
  | ok S =>
    rw [h1] at h
    simp only [if_pos] at h
    have hy := (Except.ok.inj h).symm
    subst hy
    have hne : (⟨dim, k, -1, 1⟩ : Slice) ≠ Slice.none := by
      intro hc
      have := congrArg Slice.start hc
      simp only [Slice.none] at this
      omega
    obtain ⟨m1, m2⟩ := mem_slice_point hx.wf.1 h1 hne
    obtain ⟨n, b1, b2⟩ := slice_bounds hx.wf.1 hne h1
    have hlab : ∀ d, d ∈ labels S ↔ d ∈ labels x.dims ∧ d ≠ dim := by
      intro d
      simp only [labels, List.mem_map]
      constructor
      · rintro ⟨p, hp, rfl⟩
        exact ⟨⟨p, ((m2 p).1 hp).1, rfl⟩, ((m2 p).1 hp).2⟩
      · rintro ⟨⟨p, hp, rfl⟩, hd⟩
        exact ⟨p, (m2 p).2 ⟨hp, hd⟩, rfl⟩
    refine ⟨⟨slice_WF h1 hx.wf, fun hc => hx.valid ((hlab _).1 hc).1, ?_⟩, m2, fun c => rfl, ?_, m1, rfl, rfl⟩
    · intro c c' hc
      refine hx.own _ _ (fun d hd => ?_)
      unfold upd
      by_cases hdd : d = dim
      · rw [if_pos hdd, if_pos hdd]
      · rw [if_neg hdd, if_neg hdd]
        exact hc d ((hlab d).2 ⟨hd, hdd⟩)
    · rw [extentOf_mem hx.wf.1 b1]
      simp at b2
      omega

theorem lastSlice_ok {x y : CVar V} {dim : Dim} (hx : x.arr.Ok) (h : lastSlice x dim = .ok y) :
    y.arr.Ok ∧ (∀ p, p ∈ y.dims ↔ p ∈ x.dims ∧ p.1 ≠ dim) ∧ (∀ c, y.arr.val c = x.arr.val (upd c dim (extentOf x.dims dim - 1))) ∧
      1 ≤ extentOf x.dims dim ∧ dim ∈ labels x.dims ∧ y.unit = x.unit ∧ y.kind = x.kind := by
  unfold lastSlice at h
  cases h1 : at? x.dims dim with
  | error e => rw [h1] at h; cases h
  | ok n =>
    simp only [h1, Slice.point] at h
    by_cases h2 : n - 1 < 0
    · simp only [if_pos h2] at h; cases h
    · simp only [if_neg h2] at h
      have he := extentOf_at? hx.wf.1 h1
      obtain ⟨a1, a2, a3, a4, a5, a6, a7⟩ := point_slice_ok hx (by omega) h
      exact ⟨a1, a2, by rw [he]; exact a3, by omega, a5, a6, a7⟩

theorem tailSlice_ok {x y : CVar V} {dim : Dim} (hx : x.arr.Ok) (h : tailSlice x dim = .ok y) :
    y.arr.Ok ∧ (∀ p, p.1 ≠ dim → (p ∈ y.dims ↔ p ∈ x.dims)) ∧ (∀ c, y.arr.val c = x.arr.val (upd c dim (1 + c dim))) ∧
      extentOf y.dims dim = extentOf x.dims dim - 1 ∧ dim ∈ labels y.dims ∧ y.unit = x.unit ∧ y.kind = x.kind := by
  unfold tailSlice at h
  cases h1 : at? x.dims dim with
  | error e => rw [h1] at h; cases h
  | ok n =>
    have he := extentOf_at? hx.wf.1 h1
    have hn0 := hx.wf.2 _ (at?_ok_mem h1)
    dsimp only at hn0
    simp only [h1] at h
    cases h2 : Slice.range dim 1 n with
    | error e => simp only [h2] at h; cases h
    | ok p =>
      simp only [h2] at h
      unfold Slice.range at h2
      rw [if_neg (by decide)] at h2
      by_cases g2 : n ≠ -1 ∧ 1 > n
      · rw [if_pos g2] at h2; cases h2
      · rw [if_neg g2, if_neg (by decide), if_neg (by decide)] at h2
        have hp := (Except.ok.inj h2).symm
        subst hp
        unfold CVar.slice at h
        cases h3 : Sizes.slice x.dims ⟨dim, 1, n, 1⟩ with
        | error e => rw [h3] at h; cases h
        | ok S =>
          rw [h3] at h
          have hn1 : n ≠ -1 := by omega
          simp only [if_neg hn1] at h
          have hy := (Except.ok.inj h).symm
          subst hy
          have hne : (⟨dim, 1, n, 1⟩ : Slice) ≠ Slice.none := by
            intro hc
            have := congrArg Slice.start hc
            simp only [Slice.none] at this
            omega
          obtain ⟨m1, m2⟩ := mem_slice_range hx.wf.1 hn1 h3 hne
          have hle : 1 ≤ n := by
            by_contra hc
            exact g2 ⟨hn1, by omega⟩
          rw [sliceExtent_one hle] at m2
          have hw := slice_WF h3 hx.wf
          have hlab : ∀ d, d ∈ labels S ↔ d ∈ labels x.dims := by
            intro d
            simp only [labels, List.mem_map]
            constructor
            · rintro ⟨p, hp, rfl⟩
              rcases (m2 p).1 hp with h4 | h4
              · exact ⟨p, h4.1, rfl⟩
              · rw [h4]; exact List.mem_map.1 m1
            · rintro ⟨p, hp, rfl⟩
              by_cases hd : p.1 = dim
              · exact ⟨(dim, n - 1), (m2 _).2 (.inr rfl), hd.symm⟩
              · exact ⟨p, (m2 p).2 (.inl ⟨hp, hd⟩), rfl⟩
          refine ⟨⟨hw, fun hc => hx.valid ((hlab _).1 hc), ?_⟩, ?_, fun c => ?_, ?_, (hlab _).2 m1, rfl, rfl⟩
          · intro c c' hc
            refine hx.own _ _ (fun d hd => ?_)
            unfold upd
            by_cases hdd : d = dim
            · rw [if_pos hdd, if_pos hdd]
              have := hc dim ((hlab _).2 (hdd ▸ hd))
              rw [this]
            · rw [if_neg hdd, if_neg hdd]
              exact hc d ((hlab d).2 hd)
          · intro p hp
            rw [m2]
            constructor
            · rintro (h4 | h4)
              · exact h4.1
              · exact absurd (by rw [h4]) hp
            · exact fun h4 => .inl ⟨h4, hp⟩
          · show x.arr.val (upd c dim (1 + c dim * 1)) = _
            rw [Int.mul_one]
          · rw [he]
            exact extentOf_mem hw.1 ((m2 _).2 (.inr rfl))

theorem equal_ok {eq : V → V → Bool} {x y : CVar V} (hx : x.arr.Ok) (hy : y.arr.Ok) (h : x.equal eq y = true) :
    x.unit = y.unit ∧ x.dims = y.dims ∧ x.kind = y.kind ∧ ∀ c, InDims x.dims c → eq (x.arr.val c) (y.arr.val c) = true := by
  unfold CVar.equal at h
  simp only [Bool.and_eq_true, decide_eq_true_eq, List.all_eq_true] at h
  obtain ⟨⟨⟨h1, h2⟩, h3⟩, h4⟩ := h
  refine ⟨h1, h2, h3, fun c hc => ?_⟩
  have hb := position_bounds hc
  have hk := h4 (position x.dims c).toNat (List.mem_range.2 (by omega))
  rw [show (((position x.dims c).toNat : Nat) : Int) = position x.dims c by omega] at hk
  have hcc := coordsOf_position hx.wf.1 hc
  rw [hx.own _ c hcc, hy.own _ c (fun d hd => hcc d (by rw [show x.arr.dims = y.arr.dims from h2]; exact hd))] at hk
  exact hk

theorem equal_intro {eq : V → V → Bool} {x y : CVar V} (hx : x.arr.Ok) (h1 : x.unit = y.unit) (h2 : x.dims = y.dims) (h3 : x.kind = y.kind)
    (h4 : ∀ c, InDims x.dims c → eq (x.arr.val c) (y.arr.val c) = true) : x.equal eq y = true := by
  unfold CVar.equal
  simp only [Bool.and_eq_true, decide_eq_true_eq, List.all_eq_true]
  refine ⟨⟨⟨h1, h2⟩, h3⟩, fun k hk => ?_⟩
  have := List.mem_range.1 hk
  exact h4 _ (coordsOf_inDims (s := x.dims) hx.wf (k := (k : Int)) (by omega) (by omega))

/-! ### joining edges -/

theorem joinTail_ok {eq : V → V → Bool} {dim : Dim} : ∀ (xs : List (CVar V)) (back : CVar V) (ts : List (CVar V)),
    joinTail eq dim back xs = .ok ts → ts.length = xs.length ∧ ∀ (i : Nat) x, xs[i]? = some x →
      ∃ b t l f, (back :: ts)[i]? = some b ∧ ts[i]? = some t ∧ lastSlice b dim = .ok l ∧ firstSlice x dim = .ok f ∧ l.equal eq f = true ∧
        tailSlice x dim = .ok t
  | [], back, ts, h => by
    have := (Except.ok.inj h).symm
    subst this
    exact ⟨rfl, by simp⟩
  | x :: xs, back, ts, h => by
    unfold joinTail at h
    cases h1 : lastSlice back dim with
    | error e => rw [h1] at h; cases h
    | ok l =>
      simp only [h1] at h
      cases h2 : firstSlice x dim with
      | error e => simp only [h2] at h; cases h
      | ok f =>
        simp only [h2] at h
        by_cases h3 : l.equal eq f = false
        · rw [if_pos h3] at h; cases h
        · rw [if_neg h3] at h
          cases h4 : tailSlice x dim with
          | error e => simp only [h4] at h; cases h
          | ok t =>
            simp only [h4] at h
            cases h5 : joinTail eq dim t xs with
            | error e => simp only [h5] at h; cases h
            | ok ts' =>
              simp only [h5] at h
              have := (Except.ok.inj h).symm
              subst this
              obtain ⟨i1, i2⟩ := joinTail_ok xs t ts' h5
              refine ⟨by simp [i1], ?_⟩
              intro i y hy
              cases i with
              | zero =>
                simp only [List.getElem?_cons_zero, Option.some.injEq] at hy
                subst hy
                exact ⟨back, t, l, f, rfl, rfl, h1, h2, by simpa using h3, h4⟩
              | succ i =>
                obtain ⟨b, t', l', f', g1, g2, g3⟩ := i2 i y (by simpa using hy)
                exact ⟨b, t', l', f', by simpa using g1, by simpa using g2, g3⟩

theorem joinEdges_spec {junk : V} {eq : V → V → Bool} (heq : ∀ a b, eq a b = true → a = b) {vars : List (CVar V)} {dim : Dim} {r : CVar V}
    (hv : ∀ x ∈ vars, x.arr.Ok) (h : joinEdges junk eq vars dim = .ok r) :
    r.arr.Ok ∧ (dim, (vars.map (fun x => extentOf x.dims dim - 1)).sum + 1) ∈ r.dims ∧
      (∀ x ∈ vars, ∀ p ∈ x.dims, p.1 ≠ dim → p ∈ r.dims) ∧ (∀ p ∈ r.dims, p.1 ≠ dim → ∃ x ∈ vars, p ∈ x.dims) ∧
      (∀ x ∈ vars, x.kind = r.kind) ∧
      ∀ i x, vars[i]? = some x → IsPart r.arr dim (joinOffset (vars.map CVar.dims) dim i) (extentOf x.dims dim) x.arr := by
  cases vars with
  | nil => cases h
  | cons x0 xs =>
    unfold joinEdges at h
    cases h1 : joinTail eq dim x0 xs with
    | error e => simp only [h1] at h; cases h
    | ok ts =>
      simp only [h1] at h
      obtain ⟨j1, j2⟩ := joinTail_ok xs x0 ts h1
      have hts : ∀ t ∈ ts, ∃ x ∈ xs, tailSlice x dim = .ok t := by
        intro t ht
        obtain ⟨i, hi, hit⟩ := List.getElem_of_mem ht
        obtain ⟨b, t', l, f, g1, g2, g3, g4, g5, g6⟩ := j2 i xs[i] (List.getElem?_eq_getElem (by omega))
        rw [List.getElem?_eq_getElem hi, Option.some.injEq, hit] at g2
        subst g2
        exact ⟨_, List.getElem_mem _, g6⟩
      have hto : ∀ y ∈ x0 :: ts, y.arr.Ok := by
        intro y hy
        rcases List.mem_cons.1 hy with rfl | hy
        · exact hv y (by simp)
        · obtain ⟨x, hx, hxt⟩ := hts y hy
          exact (tailSlice_ok (hv x (by simp [hx])) hxt).1
      have hext : ts.map (fun x => extentOf x.dims dim) = xs.map (fun x => extentOf x.dims dim - 1) := by
        refine List.ext_getElem (by simp [j1]) (fun i i1 i2 => ?_)
        simp only [List.length_map] at i1 i2
        obtain ⟨b, t', l, f, g1, g2, g3, g4, g5, g6⟩ := j2 i xs[i] (List.getElem?_eq_getElem i2)
        rw [List.getElem?_eq_getElem i1, Option.some.injEq] at g2
        rw [List.getElem_map, List.getElem_map, g2]
        exact (tailSlice_ok (hv _ (by simp)) g6).2.2.2.1
      have hoff : ∀ i, offsetAt ((x0 :: ts).map CVar.dims) dim (i + 1) = joinOffset ((x0 :: xs).map CVar.dims) dim (i + 1) + 1 := by
        intro i
        unfold offsetAt joinOffset
        simp only [List.map_cons, List.take_succ_cons, List.sum_cons]
        have := congrArg (fun l => (l.take i).sum) hext
        simp only [← List.map_take] at this
        rw [← List.map_take, ← List.map_take, List.map_map, List.map_map]
        simp only [Function.comp_def]
        rw [this]
        omega
      obtain ⟨c1, c2, c3, c4, c5, c6⟩ := concat_spec hto h
      refine ⟨c1, ?_, ?_, ?_, ?_, ?_⟩
      · have : ((x0 :: ts).map (fun x => extentOf x.dims dim)).sum = ((x0 :: xs).map (fun x => extentOf x.dims dim - 1)).sum + 1 := by
          simp only [List.map_cons, List.sum_cons, hext]
          omega
        rw [← this]; exact c2
      · intro x hx p hp hpd
        rcases List.mem_cons.1 hx with rfl | hx
        · exact c3 x (by simp) p hp hpd
        · obtain ⟨i, hi, hix⟩ := List.getElem_of_mem hx
          obtain ⟨b, t', l, f, g1, g2, g3, g4, g5, g6⟩ := j2 i x (by rw [List.getElem?_eq_getElem hi, hix])
          exact c3 t' (List.mem_cons_of_mem _ (List.mem_of_getElem? g2)) p (((tailSlice_ok (hv x (by simp [hx])) g6).2.1 p hpd).2 hp) hpd
      · intro p hp hpd
        obtain ⟨y, hy, hpy⟩ := c4 p hp hpd
        rcases List.mem_cons.1 hy with rfl | hy
        · exact ⟨y, by simp, hpy⟩
        · obtain ⟨x, hx, hxt⟩ := hts y hy
          exact ⟨x, by simp [hx], ((tailSlice_ok (hv x (by simp [hx])) hxt).2.1 p hpd).1 hpy⟩
      · intro x hx
        rcases List.mem_cons.1 hx with rfl | hx
        · exact c5 x (by simp)
        · obtain ⟨i, hi, hix⟩ := List.getElem_of_mem hx
          obtain ⟨b, t', l, f, g1, g2, g3, g4, g5, g6⟩ := j2 i x (by rw [List.getElem?_eq_getElem hi, hix])
          rw [← c5 t' (List.mem_cons_of_mem _ (List.mem_of_getElem? g2))]
          exact (tailSlice_ok (hv x (by simp [hx])) g6).2.2.2.2.2.2.symm
      · intro i x hx c hc hc0 hc1
        cases i with
        | zero =>
          simp only [List.getElem?_cons_zero, Option.some.injEq] at hx
          subst hx
          exact c6 0 x0 rfl c hc0 hc1
        | succ i =>
          have hx' : xs[i]? = some x := by simpa using hx
          have hxo := hv x (List.mem_of_getElem? hx)
          obtain ⟨b, t, l, f, g1, g2, g3, g4, g5, g6⟩ := j2 i x hx'
          obtain ⟨t1, t2, t3, t4, t5, t6⟩ := tailSlice_ok hxo g6
          have hb : b.arr.Ok := hto b (List.mem_of_getElem? g1)
          by_cases hz : c dim = 0
          · obtain ⟨l1, l2, l3, l4, l5, _⟩ := lastSlice_ok hb g3
            obtain ⟨f1, f2, f3, f4, f5, _⟩ := point_slice_ok hxo (le_refl 0) g4
            obtain ⟨_, q1, _, q2⟩ := equal_ok l1 f1 g5
            have hlc : InDims l.dims c := by
              intro d n hd
              rw [q1] at hd
              exact hc d n ((f2 _).1 hd).1
            have he := heq _ _ (q2 c hlc)
            rw [l3, f3] at he
            have hpart := c6 i b g1 (upd c dim (extentOf b.dims dim - 1)) (by rw [upd_same]; omega) (by rw [upd_same]; omega)
            rw [upd_same, he] at hpart
            have e1 : upd (upd c dim (extentOf b.dims dim - 1)) dim (offsetAt ((x0 :: ts).map CVar.dims) dim i + (extentOf b.dims dim - 1)) =
                upd c dim (joinOffset ((x0 :: xs).map CVar.dims) dim (i + 1) + c dim) := by
              have ho := hoff i
              have hstep : offsetAt ((x0 :: ts).map CVar.dims) dim (i + 1) = offsetAt ((x0 :: ts).map CVar.dims) dim i + extentOf b.dims dim := by
                unfold offsetAt
                rw [List.take_add_one, List.getElem?_map, g1]
                simp
              funext d
              unfold upd
              by_cases hd : d = dim
              · rw [if_pos hd, if_pos hd]; omega
              · rw [if_neg hd, if_neg hd, if_neg hd]
            rw [e1] at hpart
            rw [hpart]
            congr 1
            funext d
            unfold upd
            by_cases hd : d = dim
            · rw [if_pos hd, hd, hz]
            · rw [if_neg hd]
          · have hpart := c6 (i + 1) t (by simpa using g2) (upd c dim (c dim - 1)) (by rw [upd_same]; omega) (by rw [upd_same, t4]; omega)
            rw [t3, upd_same, hoff] at hpart
            have e1 : upd (upd c dim (c dim - 1)) dim (joinOffset ((x0 :: xs).map CVar.dims) dim (i + 1) + 1 + (c dim - 1)) =
                upd c dim (joinOffset ((x0 :: xs).map CVar.dims) dim (i + 1) + c dim) := by
              funext d
              unfold upd
              by_cases hd : d = dim
              · rw [if_pos hd, if_pos hd]; omega
              · rw [if_neg hd, if_neg hd, if_neg hd]
            have e2 : upd (upd c dim (c dim - 1)) dim (1 + (c dim - 1)) = c := by
              rw [show 1 + (c dim - 1) = c dim by omega]
              exact upd_upd_self c dim _
            rw [e1, e2] at hpart
            exact hpart

/-! ### items -/

theorem isEdges_extent {sizes x : Dims} {dim : Dim} (hs : WF sizes) (hx : WF x) (h : Sizes.isEdges sizes x dim = true) :
    dim ∈ labels x ∧ extentOf x dim = extentOf sizes dim + 1 := by
  unfold Sizes.isEdges at h
  split at h
  · cases h
  · rename_i h1
    split at h
    · cases h
    · have hc : dim ∈ labels x := by
        by_contra hc
        exact h1 (.inr (contains_false.2 hc))
      refine ⟨hc, ?_⟩
      obtain ⟨n, hn⟩ := at?_ok_of_mem_labels hc
      rw [extentOf_at? hx.1 hn]
      rw [hn] at h
      by_cases hd : dim ∈ labels sizes
      · obtain ⟨m, hm⟩ := at?_ok_of_mem_labels hd
        rw [hm] at h
        simp only [beq_iff_eq] at h
        rw [extentOf_at? hs.1 hm, h]
      · rw [at?_error hd] at h
        simp only [beq_iff_eq] at h
        rw [extentOf_not_mem hd, h]; rfl

theorem not_isEdges_extent {sizes x : Dims} {dim : Dim} (hs : WF sizes) (hx : WF x) (hf : Fits sizes x) (hi : dim ≠ Dim.invalid)
    (hd : dim ∈ labels x) (h : Sizes.isEdges sizes x dim = false) : extentOf x dim = extentOf sizes dim := by
  obtain ⟨n, hn⟩ := at?_ok_of_mem_labels hd
  obtain ⟨e, he1, he2⟩ := hf
  have hmem := at?_ok_mem hn
  rw [extentOf_at? hx.1 hn]
  by_cases hde : dim = e
  · subst hde
    rcases he2 n hmem with h1 | h1
    · exact (extentOf_mem hs.1 h1).symm
    · exfalso
      unfold Sizes.isEdges at h
      rw [if_neg (by rintro (h2 | h2); exacts [hi h2, contains_false.1 h2 hd])] at h
      rw [if_neg (by
        rintro ⟨_, hany⟩
        obtain ⟨p, hp, hpp⟩ := List.any_eq_true.1 hany
        by_cases hpd : p.1 = dim
        · simp [hpd] at hpp
        · have hps := he1 p.1 p.2 hp hpd
          rw [contains_iff.2 (mem_labels hps), at?_of_mem hs.1 hps, at?_of_mem (s := x) (d := p.1) (x := p.2) hx.1 hp] at hpp
          simp at hpp), hn] at h
      rcases h1 with ⟨m, hm, h1⟩ | ⟨h1, h2⟩
      · rw [at?_of_mem hs.1 hm] at h
        simp [h1] at h
      · rw [at?_error h1] at h
        simp [h2] at h
  · exact (extentOf_mem hs.1 (he1 dim n hmem hde)).symm

theorem CMap.extent_eq {m : CMap V} {dim : Dim} (hs : WF m.sizes) : m.extent dim = extentOf m.sizes dim := by
  unfold CMap.extent
  by_cases hd : dim ∈ labels m.sizes
  · obtain ⟨n, hn⟩ := at?_ok_of_mem_labels hd
    rw [hn, extentOf_at? hs.1 hn]
  · rw [at?_error hd, extentOf_not_mem hd]

theorem broadcastAlong_ok {dim : Dim} {m : CMap V} {v b : CVar V} (hs : WF m.sizes) (hv : v.arr.Ok) (h : broadcastAlong dim (m, v) = .ok b) :
    b.arr.Ok ∧ b.arr.val = v.arr.val ∧ (dim, extentOf m.sizes dim) ∈ b.dims ∧ (∀ p ∈ v.dims, p ∈ b.dims) ∧ b.kind = v.kind ∧
      ∀ p ∈ b.dims, p.1 ≠ dim → p ∈ v.dims := by
  unfold broadcastAlong at h
  simp only [CMap.extent_eq hs] at h
  cases h1 : Dims.addInner [] dim (extentOf m.sizes dim) with
  | error e => rw [h1] at h; cases h
  | ok d =>
    simp only [h1] at h
    have hdw := Dims.addInner_WF h1 WF.nil
    obtain ⟨d1, d2, d3, d4⟩ := Dims.addInner_ok h1
    cases h2 : Dims.merge d v.dims with
    | error e => simp only [h2] at h; cases h
    | ok M =>
      simp only [h2] at h
      unfold CVar.broadcast at h
      by_cases h3 : Sizes.includes M v.dims = false
      · rw [if_pos h3] at h; cases h
      · rw [if_neg h3] at h
        have hb := (Except.ok.inj h).symm
        subst hb
        subst d1
        have hMw := Dims.merge_WF h2
        have hdi : Dim.invalid ∉ labels ([] ++ [(dim, extentOf m.sizes dim)] : Dims) := by
          simp only [labels, List.nil_append, List.map_cons, List.map_nil, List.mem_singleton]
          exact fun hc => d4 hc.symm
        have hinc := (includes_iff hMw.1 hv.wf.1).1 (by simpa using h3)
        have hmem : ∀ p, p ∈ M ↔ p ∈ ([] ++ [(dim, extentOf m.sizes dim)] : Dims) ∨ p ∈ v.dims := by
          exact fun p => Props.C02_merge_content _ _ _ hdw hv.wf hdi hv.valid h2 p.1 p.2
        refine ⟨⟨hMw, (merge_valid hdw hv.wf hdi hv.valid h2).2, ?_⟩, rfl, (hmem _).2 (.inl (by simp)), hinc, rfl, ?_⟩
        · intro c c' hc
          exact hv.own c c' (fun d hd => hc d (labels_mono hinc d hd))
        · intro p hp hpd
          rcases (hmem p).1 hp with h4 | h4
          · simp at h4; exact absurd (by rw [h4]) hpd
          · exact h4

theorem dimOf_mem {m : CMap V} {key dim : Dim} {x : CVar V} (hi : dim ≠ Dim.invalid) (h : m.dimOf key x = dim) : dim ∈ labels x.dims := by
  unfold CMap.dimOf at h
  by_cases h1 : x.dims.length = 0
  · rw [if_pos h1] at h; exact absurd h.symm hi
  · rw [if_neg h1] at h
    by_cases h2 : x.dims.length = 1
    · rw [if_pos h2] at h
      unfold Dims.inner at h
      cases h3 : x.dims.getLast? with
      | none => rw [h3] at h; exact absurd h.symm hi
      | some p =>
        rw [h3] at h
        simp only [Option.map_some, Option.getD_some] at h
        rw [← h]
        exact List.mem_map_of_mem (List.mem_of_getLast? h3)
    · rw [if_neg h2] at h
      by_cases h3 : m.dimKeys
      · rw [if_pos h3] at h
        cases h4 : (Sizes.labels x.dims).find? (fun d => Sizes.isEdges m.sizes x.dims d) with
        | some d =>
          simp only [h4] at h
          rw [← h]
          exact List.mem_of_find?_eq_some h4
        | none =>
          simp only [h4] at h
          by_cases h5 : Sizes.contains x.dims key
          · rw [if_pos h5] at h
            rw [← h]
            exact contains_iff.1 h5
          · rw [if_neg h5] at h; exact absurd h.symm hi
      · rw [if_neg h3] at h; exact absurd h.symm hi

theorem zip_mem {α β : Type} {l : List α} {l' : List β} {i : Nat} {a : α} {b : β} (h : l[i]? = some a) (h' : l'[i]? = some b) :
    (l.zip l')[i]? = some (a, b) := by
  rw [List.getElem?_zip_eq_some]
  exact ⟨h, h'⟩

theorem offsetAt_congr {s t : List Dims} {f g : Dims → Int} (h : s.map f = t.map g) (i : Nat) :
    ((s.take i).map f).sum = ((t.take i).map g).sum := by
  have := congrArg (fun l => (l.take i).sum) h
  simpa only [List.map_take] using this

theorem concatItem_spec [DecidableEq V] {junk : V} {isnan : V → Bool} {maps : List (CMap V)} {a : CMap V} {dim key : Dim} {x y : CVar V}
    (hm : ∀ m ∈ maps, m.Ok) (ha : maps.head? = some a) (hx : lookupEntry a.items key = some x) (hdim : dim ≠ Dim.invalid)
    (hdep : SameDependence maps dim key) (h : concatItem junk isnan maps a dim key x = .ok y) (i : Nat) (m : CMap V)
    (hi : maps[i]? = some m) :
    ∃ v, lookupEntry m.items key = some v ∧ IsPart y.arr dim (offsetAt (maps.map CMap.sizes) dim i) (partExtent m.sizes v.dims dim) v.arr := by
  unfold concatItem at h
  cases h1 : maps.mapM (CMap.get key) with
  | error e => rw [h1] at h; cases h
  | ok vars =>
    simp only [h1] at h
    obtain ⟨v1, v2⟩ := mapM_get _ _ _ h1
    have hget : ∀ (j : Nat) m', maps[j]? = some m' → ∃ v, vars[j]? = some v ∧ lookupEntry m'.items key = some v ∧ v.arr.Ok ∧ Fits m'.sizes v.dims ∧
        WF m'.sizes := by
      intro j m' hj
      obtain ⟨v, g1, g2⟩ := v2 j m' hj
      unfold CMap.get at g2
      cases g3 : lookupEntry m'.items key with
      | none => rw [g3] at g2; cases g2
      | some w =>
        rw [g3] at g2
        have := Except.ok.inj g2
        subst this
        have hmo := hm m' (List.mem_of_getElem? hj)
        obtain ⟨o1, o2⟩ := hmo.2 (key, w) (lookup_mem g3)
        exact ⟨w, g1, rfl, o1, o2, hmo.1⟩
    have hvars : ∀ v ∈ vars, v.arr.Ok := by
      intro v hv
      obtain ⟨j, hj, hjv⟩ := List.getElem_of_mem hv
      obtain ⟨w, w1, _, w3, _⟩ := hget j maps[j] (List.getElem?_eq_getElem (by omega))
      rw [List.getElem?_eq_getElem hj, Option.some.injEq, hjv] at w1
      subst w1; exact w3
    obtain ⟨v, hv1, hv2, hv3, hv4, hv5⟩ := hget i m hi
    refine ⟨v, hv2, ?_⟩
    by_cases h2 : a.dimOf key x = dim
    · rw [if_pos h2] at h
      have hxd := dimOf_mem hdim h2
      by_cases h3 : (List.zip maps vars).all (CMap.edges dim) = true
      · rw [if_pos h3] at h
        have hedge : ∀ (j : Nat) m' v', maps[j]? = some m' → vars[j]? = some v' → Sizes.isEdges m'.sizes v'.dims dim = true := by
          intro j m' v' hj hj'
          exact List.all_eq_true.1 h3 _ (List.mem_of_getElem? (zip_mem hj hj'))
        obtain ⟨_, _, _, _, _, hpart⟩ := joinEdges_spec (by
          intro p q hpq
          unfold elemEq at hpq
          simp only [Bool.and_eq_true, decide_eq_true_eq] at hpq
          exact hpq.1) hvars h
        have hext : (vars.map CVar.dims).map (fun s => extentOf s dim - 1) = (maps.map CMap.sizes).map (fun s => extentOf s dim) := by
          refine List.ext_getElem (by simp [v1]) (fun j j1 j2 => ?_)
          simp only [List.length_map] at j1 j2
          simp only [List.getElem_map]
          obtain ⟨w, w1, _, w3, _, w5⟩ := hget j maps[j] (List.getElem?_eq_getElem j2)
          have hw := hedge j _ _ (List.getElem?_eq_getElem j2) w1
          rw [List.getElem?_eq_getElem j1, Option.some.injEq] at w1
          subst w1
          exact show extentOf (CVar.dims _) dim - 1 = extentOf (CMap.sizes _) dim from by
            rw [(isEdges_extent w5 w3.wf hw).2]; omega
        have hoff : joinOffset (vars.map CVar.dims) dim i = offsetAt (maps.map CMap.sizes) dim i := offsetAt_congr hext i
        have he := isEdges_extent hv5 hv3.wf (hedge i m v hi hv1)
        rw [← hoff]
        unfold partExtent
        rw [if_pos he.1]
        exact hpart i v hv1
      · rw [if_neg h3] at h
        by_cases h4 : (List.zip maps vars).any (CMap.edges dim) = true
        · rw [if_pos h4] at h; cases h
        · rw [if_neg h4] at h
          have hedge : ∀ (j : Nat) m' v', maps[j]? = some m' → vars[j]? = some v' → Sizes.isEdges m'.sizes v'.dims dim = false := by
            intro j m' v' hj hj'
            have h5 := List.any_eq_false.1 (by simpa using h4) _ (List.mem_of_getElem? (zip_mem hj hj'))
            unfold CMap.edges at h5
            simpa using h5
          have hext' : ∀ (j : Nat) m' v', maps[j]? = some m' → vars[j]? = some v' → extentOf v'.dims dim = extentOf m'.sizes dim := by
            intro j m' v' hj hj'
            obtain ⟨w, w1, w2, w3, w4, w5⟩ := hget j m' hj
            rw [hj', Option.some.injEq] at w1
            subst w1
            by_cases hd : dim ∈ labels v'.dims
            · exact not_isEdges_extent w5 w3.wf w4 hdim hd (hedge j m' v' hj hj')
            · rcases hdep a x ha hx hxd m' (List.mem_of_getElem? hj) v' w2 with h6 | h6
              · exact absurd h6 hd
              · rw [h6, extentOf_not_mem hd]
          have hext : (vars.map CVar.dims).map (fun s => extentOf s dim) = (maps.map CMap.sizes).map (fun s => extentOf s dim) := by
            refine List.ext_getElem (by simp [v1]) (fun j j1 j2 => ?_)
            simp only [List.length_map] at j1 j2
            simp only [List.getElem_map]
            exact hext' j _ _ (List.getElem?_eq_getElem j2) (List.getElem?_eq_getElem j1)
          obtain ⟨_, _, _, _, _, hpart⟩ := concat_spec hvars h
          have hoff : offsetAt (vars.map CVar.dims) dim i = offsetAt (maps.map CMap.sizes) dim i := offsetAt_congr hext i
          rw [← hoff]
          intro c _ hc0 hc1
          refine hpart i v hv1 c hc0 ?_
          unfold partExtent at hc1
          by_cases hd : dim ∈ labels v.dims
          · rw [if_pos hd] at hc1; exact hc1
          · rw [if_neg hd] at hc1; rw [hext' i m v hi hv1]; exact hc1
    · rw [if_neg h2] at h
      by_cases h3 : vars.any (fun v => Sizes.contains v.dims dim || !(v.equal elemEqNan x)) = true
      · rw [if_pos h3] at h
        cases h4 : (List.zip maps vars).mapM (broadcastAlong dim) with
        | error e => simp only [h4] at h; cases h
        | ok bs =>
          simp only [h4] at h
          obtain ⟨b1, b2⟩ := mapM_get _ _ _ h4
          have hb : ∀ (j : Nat) m', maps[j]? = some m' → ∃ v' b, vars[j]? = some v' ∧ bs[j]? = some b ∧ b.arr.Ok ∧ b.arr.val = v'.arr.val ∧
              (dim, extentOf m'.sizes dim) ∈ b.dims ∧ (∀ p ∈ v'.dims, p ∈ b.dims) := by
            intro j m' hj
            obtain ⟨w, w1, w2, w3, w4, w5⟩ := hget j m' hj
            obtain ⟨b, g1, g2⟩ := b2 j _ (zip_mem hj w1)
            obtain ⟨k1, k2, k3, k4, _⟩ := broadcastAlong_ok w5 w3 g2
            exact ⟨w, b, w1, g1, k1, k2, k3, k4⟩
          have hlen : bs.length = maps.length := by
            rw [b1, List.length_zip, v1]; omega
          have hbo : ∀ b ∈ bs, b.arr.Ok := by
            intro b hbm
            obtain ⟨j, hj, hjv⟩ := List.getElem_of_mem hbm
            obtain ⟨w, b', w1, w2, w3, _⟩ := hb j maps[j] (List.getElem?_eq_getElem (by omega))
            rw [List.getElem?_eq_getElem hj, Option.some.injEq, hjv] at w2
            subst w2; exact w3
          have hext : (bs.map CVar.dims).map (fun s => extentOf s dim) = (maps.map CMap.sizes).map (fun s => extentOf s dim) := by
            refine List.ext_getElem (by simp [hlen]) (fun j j1 j2 => ?_)
            simp only [List.length_map] at j1 j2
            simp only [List.getElem_map]
            obtain ⟨w, b', w1, w2, w3, _, w5, _⟩ := hb j maps[j] (List.getElem?_eq_getElem j2)
            rw [List.getElem?_eq_getElem j1, Option.some.injEq] at w2
            subst w2
            exact extentOf_mem w3.wf.1 w5
          obtain ⟨_, _, _, _, _, hpart⟩ := concat_spec hbo h
          have hoff : offsetAt (bs.map CVar.dims) dim i = offsetAt (maps.map CMap.sizes) dim i := offsetAt_congr hext i
          obtain ⟨w, b, w1, w2, w3, w4, w5, w6⟩ := hb i m hi
          rw [hv1, Option.some.injEq] at w1
          subst w1
          rw [← hoff]
          intro c _ hc0 hc1
          rw [← w4]
          refine hpart i b w2 c hc0 ?_
          rw [extentOf_mem w3.wf.1 w5]
          unfold partExtent at hc1
          by_cases hd : dim ∈ labels v.dims
          · rw [if_pos hd] at hc1
            obtain ⟨n, hn⟩ := at?_ok_of_mem_labels hd
            have hn' := w6 _ (at?_ok_mem hn)
            rw [extentOf_at? hv3.wf.1 hn, ← extentOf_mem w3.wf.1 hn', extentOf_mem w3.wf.1 w5] at hc1
            exact hc1
          · rw [if_neg hd] at hc1; exact hc1
      · rw [if_neg h3] at h
        have := Except.ok.inj h
        subst this
        have h4 : ∀ w ∈ vars, Sizes.contains w.dims dim = false ∧ CVar.equal elemEqNan w x = true := by simpa using h3
        obtain ⟨h5, h6⟩ := h4 v (List.mem_of_getElem? hv1)
        have hxo : x.arr.Ok := by
          have hmem : a ∈ maps := List.mem_of_mem_head? ha
          exact ((hm a hmem).2 (key, x) (lookup_mem hx)).1
        obtain ⟨_, q1, _, q2⟩ := equal_ok hv3 hxo h6
        intro c hc _ _
        have he := q2 c hc
        unfold elemEqNan at he
        rw [decide_eq_true_iff] at he
        rw [he]
        refine hxo.own _ _ (fun d hd => ?_)
        refine upd_ne (fun hdd => ?_)
        rw [hdd] at hd
        rw [show x.arr.dims = v.dims from q1.symm] at hd
        exact contains_false.1 h5 hd

theorem concatItems_lookup [DecidableEq V] {junk : V} {isnan : V → Bool} {maps : List (CMap V)} {a : CMap V} {dim : Dim} :
    ∀ (l out : List (Dim × CVar V)), concatItems junk isnan maps a dim l = .ok out →
      out.map Prod.fst = l.map Prod.fst ∧ ∀ key y, lookupEntry out key = some y → ∃ x, lookupEntry l key = some x ∧ concatItem junk isnan maps a dim key x = .ok y
  | [], out, h => by
    have := (Except.ok.inj h).symm
    subst this
    exact ⟨rfl, fun key y hy => by cases hy⟩
  | (k, x) :: l, out, h => by
    unfold concatItems at h
    cases h1 : concatItem junk isnan maps a dim k x with
    | error e => rw [h1] at h; cases h
    | ok y =>
      simp only [h1] at h
      cases h2 : concatItems junk isnan maps a dim l with
      | error e => simp only [h2] at h; cases h
      | ok ys =>
        simp only [h2] at h
        have := (Except.ok.inj h).symm
        subst this
        obtain ⟨i1, i2⟩ := concatItems_lookup l ys h2
        refine ⟨by simp [i1], fun key z hz => ?_⟩
        unfold lookupEntry at hz ⊢
        by_cases hk : k = key
        · rw [if_pos hk] at hz ⊢
          rw [← Option.some.inj hz, ← hk]
          exact ⟨x, rfl, h1⟩
        · rw [if_neg hk] at hz ⊢
          exact i2 key z hz

theorem concatMaps_spec [DecidableEq V] {junk : V} {isnan : V → Bool} {maps : List (CMap V)} {dim : Dim} {out : List (Dim × CVar V)}
    (hm : ∀ m ∈ maps, m.Ok) (hdim : dim ≠ Dim.invalid) (hdep : ∀ key, SameDependence maps dim key) (h : concatMaps junk isnan maps dim = .ok out) :
    IsItemConcat out maps dim ∧ ∀ a, maps.head? = some a → out.map Prod.fst = a.items.map Prod.fst := by
  cases maps with
  | nil => cases h
  | cons a rest =>
    obtain ⟨h1, h2⟩ := concatItems_lookup _ _ h
    refine ⟨?_, fun b hb => by cases hb; exact h1⟩
    intro key y hy i m hi
    obtain ⟨x, hx, hxy⟩ := h2 key y hy
    exact concatItem_spec hm rfl hx hdim (hdep key) hxy i m hi

end Scipp.Concat
