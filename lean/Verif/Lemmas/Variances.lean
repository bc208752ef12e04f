import Verif.Props.View
import Verif.Model.Variances
/-!
In a view derived by any sequence of view operations, different coordinates can refer to the
same element only if they differ just in dims of stride zero.
-/
namespace Scipp
open Sizes Props

/-- Elements are shared only along dims with stride zero. -/
def ZeroShared (v : View) : Prop :=
  ∀ c c', InDims v.dims c → InDims v.dims c' → v.addr c = v.addr c' →
    ∀ d ∈ labels v.dims, c d = c' d ∨ strideOf v.dims v.strides d = 0

theorem strideOf_append_right {pre post : Dims} {spre spost : List Int} {d : Dim}
    (hl : spre.length = pre.length) (hd : d ∉ labels pre) :
    strideOf (pre ++ post) (spre ++ spost) d = strideOf post spost d := by
  induction pre generalizing spre with
  | nil => cases spre with
    | nil => rfl
    | cons _ _ => simp at hl
  | cons p pre ih => cases spre with
    | nil => simp at hl
    | cons x spre =>
      simp only [labels_cons, List.mem_cons, not_or] at hd
      simp only [List.cons_append, strideOf, if_neg (Ne.symm hd.1)]
      exact ih (by simpa using hl) hd.2

theorem strideOf_append_left {pre post : Dims} {spre spost : List Int} {d : Dim}
    (hl : spre.length = pre.length) (hd : d ∈ labels pre) :
    strideOf (pre ++ post) (spre ++ spost) d = strideOf pre spre d := by
  induction pre generalizing spre with
  | nil => simp at hd
  | cons p pre ih => cases spre with
    | nil => simp at hl
    | cons x spre =>
      simp only [List.cons_append, strideOf]
      by_cases hp : p.1 = d
      · rw [if_pos hp, if_pos hp]
      · rw [if_neg hp, if_neg hp]
        simp only [labels_cons, List.mem_cons] at hd
        exact ih (by simpa using hl) (hd.resolve_left (fun e => hp e.symm))

theorem strideOf_cons_self {d : Dim} {n : Int} {post : Dims} {x : Int} {spost : List Int} :
    strideOf ((d, n) :: post) (x :: spost) d = x := by simp [strideOf]

theorem strideOf_cons_ne {d e : Dim} {n : Int} {post : Dims} {x : Int} {spost : List Int} (h : e ≠ d) :
    strideOf ((d, n) :: post) (x :: spost) e = strideOf post spost e := by
  simp [strideOf, Ne.symm h]

theorem strideOf_mid {pre post : Dims} {spre spost : List Int} {d : Dim} {n x : Int}
    (hl : spre.length = pre.length) (hd : d ∉ labels pre) :
    strideOf (pre ++ (d, n) :: post) (spre ++ x :: spost) d = x := by
  rw [strideOf_append_right hl hd, strideOf_cons_self]

/-- Outside the replaced segment strides are not affected. -/
theorem strideOf_outside {pre mid mid' post : Dims} {spre smid smid' spost : List Int} {e : Dim}
    (hl : spre.length = pre.length) (hm : smid.length = mid.length) (hm' : smid'.length = mid'.length)
    (he : e ∉ labels mid) (he' : e ∉ labels mid') :
    strideOf (pre ++ (mid ++ post)) (spre ++ (smid ++ spost)) e =
      strideOf (pre ++ (mid' ++ post)) (spre ++ (smid' ++ spost)) e := by
  by_cases hp : e ∈ labels pre
  · rw [strideOf_append_left hl hp, strideOf_append_left hl hp]
  · rw [strideOf_append_right hl hp, strideOf_append_right hl hp, strideOf_append_right hm he,
      strideOf_append_right hm' he']

theorem strideOf_mem {s : Dims} {st : List Int} {d : Dim} (hl : st.length = s.length)
    (hd : d ∈ labels s) : strideOf s st d ∈ st := by
  induction s generalizing st with
  | nil => simp at hd
  | cons p s ih => cases st with
    | nil => simp at hl
    | cons x st =>
      simp only [strideOf]
      by_cases hp : p.1 = d
      · rw [if_pos hp]; simp
      · rw [if_neg hp]
        simp only [labels_cons, List.mem_cons] at hd
        exact List.mem_cons_of_mem _ (ih (by simpa using hl) (hd.resolve_left (fun e => hp e.symm)))

/-- Row-major strides are not zero unless an extent is. -/
theorem rowMajor_ne_zero {s : Dims} {c : Dim → Int} (hc : InDims s c) : ∀ x ∈ rowMajor (shape s), x ≠ 0 := by
  induction s with
  | nil => simp [rowMajor, rowMajorAux]
  | cons p s ih =>
    intro x hx
    rw [shape_cons, rowMajor_shape_cons] at hx
    rcases List.mem_cons.1 hx with rfl | hx
    · have := position_bounds hc.tail; omega
    · exact ih hc.tail x hx

theorem ZeroShared.of_distinct {v : View} (h : v.Distinct) : ZeroShared v :=
  fun c c' hc hc' he d hd => .inl (h c c' hc hc' he d hd)

theorem slice_zeroShared {v v' : View} {p : Slice} (hw : v.WF) (hz : ZeroShared v) (hp : p.Constructed)
    (h : v.slice p = .ok v') : ZeroShared v' := by
  obtain ⟨d, b, e, st⟩ := p
  obtain ⟨h0, hst, hse⟩ := hp.spec
  simp only at h0 hst hse
  obtain ⟨m, hm, hle⟩ := (C04_slice_accepts_iff v _ hw hp).1.1 ⟨v', h⟩
  simp only at hm hle
  obtain ⟨pre, m', post, spre, x, spost, hv', k1, k2, k3⟩ := View.split hw.2.1 (mem_labels hm)
  have hm' : m' = m := by
    have := at?_of_mem hw.1.1 hm
    rw [hv'] at this
    simp only [at?_mid k1] at this
    injection this
  subst hm'
  by_cases hr : e = -1
  · subst hr
    obtain ⟨g1, g2, g3, g4⟩ := C04_point_slice v v' d b st hw hp h
    have hv'' : v' = ⟨pre ++ post, spre ++ spost, v.offset + b * x, v.readonly⟩ := by
      rw [hv', View.slice_point_eq k1 k2 h0 (by simpa using hle)] at h
      injection h with h; exact h.symm
    intro c c' hc hc' he d' hd'
    rw [g3, g3] at he
    have hne : d' ≠ d := by rw [g1] at hd'; simpa using (List.mem_filter.1 hd').2
    have := hz _ _ (g4 c hc) (g4 c' hc') he d' (by rw [g1] at hd'; exact (List.mem_filter.1 hd').1)
    rw [upd_ne hne, upd_ne hne] at this
    have hs : strideOf v'.dims v'.strides d' = strideOf v.dims v.strides d' := by
      rw [hv'', hv']
      exact strideOf_outside (mid := []) (mid' := [(d, m')]) (smid := []) (smid' := [x]) k2 rfl rfl (by simp)
        (by simpa using hne)
    rwa [hs]
  · have hse : b ≤ e := hse.resolve_left hr
    rw [if_neg hr] at hle
    obtain ⟨g1, g2, ⟨k, hk, hk2⟩, g4, g5⟩ := C04_range_slice v v' d b e st hw hp hr h
    have hv'' : v' = ⟨pre ++ (d, sliceExtent b e st) :: post, spre ++ x * st :: spost,
        v.offset + b * x, v.readonly⟩ := by
      rw [hv', View.slice_range_eq k1 k2 h0 hse hst hle] at h
      injection h with h; exact h.symm
    intro c c' hc hc' he d' hd'
    rw [g4, g4] at he
    have := hz _ _ (g5 c hc) (g5 c' hc') he d' (by rw [← g1]; exact hd')
    by_cases hne : d' = d
    · subst hne
      rw [upd_same, upd_same] at this
      rcases this with this | this
      · left
        have : c d' * st = c' d' * st := by omega
        exact mul_right_cancel₀ (by omega) this
      · right
        rw [hv'] at this
        rw [hv'']
        simp only [strideOf_mid k2 k1] at this ⊢
        rw [this]; simp
    · rw [upd_ne hne, upd_ne hne] at this
      have hs : strideOf v'.dims v'.strides d' = strideOf v.dims v.strides d' := by
        rw [hv'', hv']
        exact strideOf_outside (mid := [(d, _)]) (mid' := [(d, m')]) (smid := [_]) (smid' := [x]) k2 rfl rfl
          (by simpa using hne) (by simpa using hne)
      rwa [hs]

theorem transpose_zeroShared {v v' : View} {o : List Dim} (hw : v.WF) (hz : ZeroShared v)
    (h : v.transpose o = .ok v') : ZeroShared v' := by
  obtain ⟨_, h2, h3, _, h5, h6, _⟩ := View.transpose_ok hw h
  have ha := View.transpose_addr hw h
  have hin : ∀ c, InDims v'.dims c → InDims v.dims c := fun c hc d n hm => hc d n (h2.mem_iff.2 hm)
  intro c c' hc hc' he d hdm
  rw [ha, ha] at he
  rcases hz c c' (hin c hc) (hin c' hc') he d ((h2.map Prod.fst).mem_iff.1 hdm) with h' | h'
  · exact .inl h'
  · right
    -- the stride of a label is found from the zipped list
    have key : ∀ (s : Dims) (st : List Int), st.length = s.length → (labels s).Nodup → d ∈ labels s →
        ∀ y, (d, y) ∈ (labels s).zip st ↔ y = strideOf s st d := by
      intro s
      induction s with
      | nil => intro st _ _ hd; simp at hd
      | cons p s ih =>
        intro st hl hn hd y
        cases st with
        | nil => simp at hl
        | cons x st =>
          simp only [labels_cons, List.nodup_cons] at hn
          simp only [labels_cons, List.zip_cons_cons, List.mem_cons, Prod.mk.injEq, strideOf]
          by_cases hp : p.1 = d
          · rw [if_pos hp]
            constructor
            · rintro (⟨_, h⟩ | h)
              · exact h
              · exact absurd (List.of_mem_zip h).1 (hp ▸ hn.1)
            · intro h; exact .inl ⟨hp.symm, h⟩
          · rw [if_neg hp]
            simp only [labels_cons, List.mem_cons] at hd
            rw [← ih st (by simpa using hl) hn.2 (hd.resolve_left (fun e => hp e.symm)) y]
            constructor
            · rintro (⟨h, _⟩ | h)
              · exact absurd h.symm hp
              · exact h
            · exact .inr
    have m1 := (key v.dims v.strides hw.2.1 hw.1.1 ((h2.map Prod.fst).mem_iff.1 hdm) _).2 rfl
    exact (((key v'.dims v'.strides h6.2.1 h6.1.1 hdm _).1 (h3.mem_iff.2 m1)).symm).trans h'

theorem strideOf_map {t : Dims} {f : Dim → Int} {d : Dim} (hd : d ∈ labels t) :
    strideOf t ((labels t).map f) d = f d := by
  induction t with
  | nil => simp at hd
  | cons p t ih =>
    simp only [labels_cons, List.map_cons, strideOf]
    by_cases hp : p.1 = d
    · rw [if_pos hp, hp]
    · rw [if_neg hp]
      simp only [labels_cons, List.mem_cons] at hd
      exact ih (hd.resolve_left (fun e => hp e.symm))

theorem broadcast_zeroShared {v v' : View} {t : Dims} (hw : v.WF) (hz : ZeroShared v) (ht : Sizes.WF t)
    (h : v.broadcast t = .ok v') : ZeroShared v' := by
  obtain ⟨_, ha, _⟩ := C07_broadcast_elements v v' t hw ht.1 h
  obtain ⟨hi, hv'⟩ := View.broadcast_ok hw ht.1 h
  have hin : ∀ c, InDims v'.dims c → InDims v.dims c := fun c hc d m hm => hc d m (by rw [hv']; exact hi _ hm)
  intro c c' hc hc' he d hd
  rw [ha, ha] at he
  have hs : strideOf v'.dims v'.strides d = strideOf v.dims v.strides d := by
    rw [hv'] at hd ⊢
    exact strideOf_map hd
  rw [hs]
  by_cases hdv : d ∈ labels v.dims
  · exact hz c c' (hin c hc) (hin c' hc') he d hdv
  · exact .inr (strideOf_absent hdv)

theorem fold_zeroShared {n : Int} {v v' : View} {d : Dim} {t : Dims} (hg : GoodView n v) (hz : ZeroShared v)
    (h : v.fold d t = .ok v') : ZeroShared v' := by
  have hw := hg.1
  have ha := View.fold_addr hw h
  obtain ⟨pre, m, post, spre, x, spost, hv, h1, h2, h3, h4, hv', hvol, hwf⟩ := View.fold_ok hw h
  have hwd : v.dims = pre ++ (d, m) :: post := by rw [hv]
  have hwd' : v'.dims = pre ++ t ++ post := by rw [hv']
  have htnd : (labels t).Nodup := by
    have := hwf.1
    simp only [labels_append] at this
    exact (List.nodup_append.1 (List.nodup_append.1 this).1).2.1
  have hmt : ∀ c, InDims v'.dims c → m = Dims.volume t := by
    intro c hc
    have hpos := position_bounds hc
    rw [hwd, hwd'] at hvol
    have hv1 : Dims.volume v'.dims = Dims.volume pre * Dims.volume t * Dims.volume post := by
      rw [hwd', volume_append, volume_append]
    simp only [volume_append, volume_cons] at hvol
    have hz : Dims.volume pre * Dims.volume post ≠ 0 := by
      intro e
      have : Dims.volume v'.dims = Dims.volume pre * Dims.volume post * Dims.volume t := by rw [hv1]; ring
      rw [e] at this; omega
    apply mul_left_cancel₀ hz
    calc Dims.volume pre * Dims.volume post * m = Dims.volume pre * (m * Dims.volume post) := by ring
      _ = Dims.volume pre * Dims.volume t * Dims.volume post := hvol
      _ = _ := by ring
  have hin : ∀ c, InDims v'.dims c → InDims t c ∧ InDims v.dims (upd c d (position t c)) := by
    intro c hc
    have hct : InDims t c := fun d' n' hm => hc d' n' (by rw [hwd']; simp [hm])
    refine ⟨hct, ?_⟩
    intro d' n' hm
    by_cases hdd : d' = d
    · subst hdd
      have hnn : n' = m := by
        have e1 := at?_of_mem hw.1.1 hm
        rw [hwd, at?_mid h1] at e1
        injection e1 with e1; exact e1.symm
      rw [upd_same, hnn, hmt c hc]
      exact position_bounds hct
    · rw [upd_ne hdd]
      apply hc
      rw [hwd] at hm; rw [hwd']
      simp only [List.mem_append, List.mem_cons, Prod.mk.injEq, hdd, false_and, false_or] at hm ⊢
      tauto
  intro c c' hc hc' he d' hd'
  rw [ha, ha] at he
  have hdist := hz _ _ (hin c hc).2 (hin c' hc').2 he
  rw [hwd'] at hd'
  simp only [labels_append, List.mem_append] at hd'
  have hlt : ((rowMajor (shape t)).map (x * ·)).length = t.length := by simp
  by_cases hdt : d' ∈ labels t
  · have hd0 := hdist d (by rw [hwd]; simp)
    rw [upd_same, upd_same] at hd0
    rcases hd0 with hpos | hx
    · exact .inl (position_inj htnd (hin c hc).1 (hin c' hc').1 hpos d' hdt)
    · right
      rw [hv] at hx
      simp only [strideOf_mid h3 h1] at hx
      have hdp : d' ∉ labels pre := by
        intro hp
        have := hwf.1
        simp only [labels_append] at this
        exact (List.nodup_append.1 (List.nodup_append.1 this).1).2.2 d' hp d' hdt rfl
      rw [hv']
      simp only [List.append_assoc]
      rw [strideOf_append_right h3 hdp, strideOf_append_left hlt hdt]
      have := strideOf_mem hlt hdt
      obtain ⟨y, _, hy⟩ := List.mem_map.1 this
      rw [← hy, hx]; simp
  · have hdne : d' ≠ d := by
      rintro rfl
      rcases hd' with (h | h) | h
      · exact h1 h
      · exact hdt h
      · exact h2 h
    have := hdist d' (by
      rw [hwd]
      simp only [labels_append, labels_cons, List.mem_append, List.mem_cons]
      tauto)
    rw [upd_ne hdne, upd_ne hdne] at this
    have hs : strideOf v'.dims v'.strides d' = strideOf v.dims v.strides d' := by
      rw [hv', hv]
      simp only [List.append_assoc]
      exact strideOf_outside (mid := t) (mid' := [(d, m)]) (smid := _) (smid' := [x]) h3 hlt rfl hdt
        (by simpa using hdne)
    rwa [hs]

theorem flatten_zeroShared {n : Int} {v v' : View} {ls : List Dim} {d : Dim} (hg : GoodView n v)
    (hz : ZeroShared v) (h : v.flatten? ls d = .ok (some v')) : ZeroShared v' := by
  obtain ⟨hw, hb, hd⟩ := hg
  by_cases hne : ls = []
  · subst hne
    simp only [View.flatten?, if_true, bind, Except.bind] at h
    split at h
    · simp at h
    rename_i dims hdims
    obtain ⟨hde, hnot, _, _⟩ := Dims.addInner_ok hdims
    simp only [Except.ok.injEq, Option.some.injEq] at h
    subst h
    subst hde
    have ha : ∀ c, addrAux (v.dims ++ [(d, 1)]) (v.strides ++ [1]) c =
        addrAux v.dims v.strides c + c d := by
      intro c; rw [addrAux_append hw.2.1]; simp
    have hzero : ∀ c, InDims (v.dims ++ [(d, 1)]) c → c d = 0 := by
      intro c hc
      have := hc d 1 (by simp)
      omega
    have hin : ∀ c, InDims (v.dims ++ [(d, 1)]) c → InDims v.dims c :=
      fun c hc d' n' hm => hc d' n' (by simp [hm])
    intro c c' hc hc' he d' hd'
    simp only at hc hc' hd'
    simp only [View.addr, ha, hzero c hc, hzero c' hc', Int.add_zero] at he
    have := hz c c' (hin c hc) (hin c' hc') he
    simp only [labels_append, labels_cons, labels_nil, List.mem_append, List.mem_singleton] at hd'
    rcases hd' with hd' | hd'
    · rcases this d' hd' with h | h
      · exact .inl h
      · right
        simp only [strideOf_append_left hw.2.1 hd']
        exact h
    · left; rw [hd', hzero c hc, hzero c' hc']
  · obtain ⟨pre, mid, post, spre, smid, spost, hv, h1, h2, h3, h4, h5, _⟩ := View.flatten?_spec hw hne _ h
    obtain ⟨h6, h7, h8, h9, h10⟩ := h5 _ rfl
    have hwd : v.dims = pre ++ mid ++ post := by rw [hv]
    have hwd' : v'.dims = pre ++ (d, Dims.volume mid) :: post := by rw [h10]
    have hmidw : Sizes.WF mid := by
      apply sublist_WF _ hw.1
      rw [hwd, List.append_assoc]
      exact List.Sublist.trans (List.sublist_append_left _ _) (List.sublist_append_right _ _)
    have hnd := hw.1.1
    rw [hwd] at hnd
    simp only [labels_append] at hnd
    obtain ⟨n1, n2, n3⟩ := List.nodup_append.1 hnd
    obtain ⟨n4, n5, n6⟩ := List.nodup_append.1 n1
    let back : (Dim → Int) → (Dim → Int) := fun c e =>
      if e ∈ labels mid then coordsOf mid (c d) e else c e
    have hcd : ∀ c, InDims v'.dims c → 0 ≤ c d ∧ c d < Dims.volume mid := by
      intro c hc; exact hc d _ (by rw [hwd']; simp)
    have hpos : ∀ c, InDims v'.dims c → position mid (back c) = c d := by
      intro c hc
      rw [position_congr (c' := coordsOf mid (c d)) (fun e he => by simp [back, he])]
      exact position_coordsOf hmidw (hcd c hc).1 (hcd c hc).2
    have hin : ∀ c, InDims v'.dims c → InDims v.dims (back c) := by
      intro c hc d' n' hm
      rw [hwd] at hm
      simp only [List.mem_append] at hm
      by_cases he : d' ∈ labels mid
      · have hmm : (d', n') ∈ mid := by
          rcases hm with (hm | hm) | hm
          · exact absurd rfl (n6 d' (mem_labels hm) d' he)
          · exact hm
          · exact absurd rfl (n3 d' (List.mem_append_right _ he) d' (mem_labels hm))
        simp only [back, he, if_true]
        exact coordsOf_inDims hmidw (hcd c hc).1 (hcd c hc).2 d' n' hmm
      · simp only [back, he, if_false]
        apply hc d' n'
        rw [hwd']
        rcases hm with (hm | hm) | hm
        · simp [hm]
        · exact absurd (mem_labels hm) he
        · simp [hm]
    have hpm : ∀ e ∈ labels pre, e ∉ labels mid := fun e he hm => n6 e he e hm rfl
    have hmp : ∀ e ∈ labels post, e ∉ labels mid := fun e he hm => n3 e (List.mem_append_right _ hm) e he rfl
    have ha : ∀ c, InDims v'.dims c → v'.addr c = v.addr (back c) := by
      intro c hc
      rw [h10, hv]
      simp only [View.addr]
      rw [addrAux_mid h2, addrAux_append (by simp [h2, h3]), addrAux_append h2, contig_addr h9 h3 h8,
        hpos c hc]
      rw [addrAux_congr (c := back c) (c' := c) (s := pre) (fun e he => by simp [back, hpm e he]),
        addrAux_congr (c := back c) (c' := c) (s := post) (fun e he => by simp [back, hmp e he])]
      ring
    intro c c' hc hc' he d' hd'
    rw [ha c hc, ha c' hc'] at he
    have hdist := hz _ _ (hin c hc) (hin c' hc') he
    rw [hwd'] at hd'
    simp only [labels_append, labels_cons, List.mem_append, List.mem_cons] at hd'
    have outside : d' ∉ labels mid → d' ≠ d →
        strideOf v'.dims v'.strides d' = strideOf v.dims v.strides d' := by
      intro hm hdd
      rw [h10, hv]
      simp only [List.append_assoc]
      exact strideOf_outside (mid := [(d, _)]) (mid' := mid) (smid := [_]) (smid' := smid) h2 rfl h3
        (by simpa using hdd) hm
    by_cases hdd : d' = d
    · subst hdd
      by_cases hlast : smid.getLast h9 = 0
      · right
        rw [h10]
        simp only [strideOf_mid h2 h6, hlast]
      · left
        rw [← hpos c hc, ← hpos c' hc']
        apply position_congr
        intro e he'
        rcases hdist e (by rw [hwd]; simp [he']) with h | h
        · exact h
        · exfalso
          have hep : e ∉ labels pre := fun hp => hpm e hp he'
          rw [hv] at h
          simp only [List.append_assoc] at h
          rw [strideOf_append_right h2 hep, strideOf_append_left h3 he'] at h
          have hmem := strideOf_mem h3 he'
          rw [h] at hmem
          rw [contig_eq mid smid h9 h3 h8] at hmem
          obtain ⟨y, hy, hxy⟩ := List.mem_map.1 hmem
          have hbm : InDims mid (back c) := fun d0 n0 hm => hin c hc d0 n0 (by rw [hwd]; simp [hm])
          exact (mul_ne_zero hlast (rowMajor_ne_zero hbm y hy)) hxy
    · have hdm : d' ∉ labels mid := by
        rcases hd' with hd' | hd' | hd'
        · exact hpm d' hd'
        · exact absurd hd' hdd
        · exact hmp d' hd'
      have hdv : d' ∈ labels v.dims := by
        rw [hwd]
        simp only [labels_append, List.mem_append]
        rcases hd' with hd' | hd' | hd'
        · exact .inl (.inl hd')
        · exact absurd hd' hdd
        · exact .inr hd'
      rw [outside hdm hdd]
      rcases hdist d' hdv with h | h
      · left; simpa [back, hdm] using h
      · exact .inr h

theorem rename_zeroShared {n : Int} {v v' : View} {ns : List (Dim × Dim)} {b : Bool} (hg : GoodView n v)
    (hz : ZeroShared v) (h : v.renameDims ns b = .ok v') : ZeroShared v' := by
  simp only [View.renameDims, bind, Except.bind] at h
  split at h
  · simp at h
  rename_i dims hd
  injection h with h
  subst h
  have step : ∀ (s s' : Dims) (f t : Dim), View.WF ⟨s, v.strides, v.offset, v.readonly⟩ ∧
      ZeroShared ⟨s, v.strides, v.offset, v.readonly⟩ → replaceKey s f t = .ok s' →
      View.WF ⟨s', v.strides, v.offset, v.readonly⟩ ∧
      ZeroShared ⟨s', v.strides, v.offset, v.readonly⟩ := by
    intro s s' f t ⟨hw, hz⟩ hr
    have hw1 := hw.1
    simp only at hw1
    obtain ⟨hf, hc⟩ := (C08_replace_one s f t hw1.1).1.1 ⟨s', hr⟩
    have e := (C08_replace_one s f t hw1.1).2 s' hr
    obtain ⟨pre, m, post, spre, x, spost, hv, k1, k2, k3⟩ :=
      View.split (v := ⟨s, v.strides, v.offset, v.readonly⟩) hw.2.1 hf
    simp only [View.mk.injEq, and_true] at hv
    obtain ⟨hs, hst⟩ := hv
    have hnd := hw1.1
    rw [hs] at hnd
    obtain ⟨_, k4, _⟩ := nodup_mid hnd
    have ht1 : t ∉ labels pre := by
      rcases hc with rfl | hc
      · exact k1
      · rw [hs] at hc; simp at hc; exact hc.1
    have ht2 : t ∉ labels post := by
      rcases hc with rfl | hc
      · exact k4
      · rw [hs] at hc; simp at hc; exact hc.2.2
    have hs' : s' = pre ++ (t, m) :: post := by
      rw [hs, replaceKey_mid k1 ht1 ht2] at hr
      injection hr with hr; exact hr.symm
    have ha : ∀ c, addrAux s' v.strides c = addrAux s v.strides (upd c f (c t)) := by
      intro c
      rw [hs', hs, hst, addrAux_mid k2, addrAux_mid k2, addrAux_upd k1, addrAux_upd k4, upd_same]
    have hin : ∀ c, InDims s' c → InDims s (upd c f (c t)) := by
      intro c hcc d' n' hm
      rw [hs] at hm
      rw [hs'] at hcc
      simp only [List.mem_append, List.mem_cons, Prod.mk.injEq] at hm
      by_cases hdf : d' = f
      · subst hdf
        rw [upd_same]
        rcases hm with hm | hm | hm
        · exact absurd (mem_labels hm) k1
        · rw [hm.2]; exact hcc t m (by simp)
        · exact absurd (mem_labels hm) k4
      · rw [upd_ne hdf]
        apply hcc
        rcases hm with hm | hm | hm
        · simp [hm]
        · exact absurd hm.1 hdf
        · simp [hm]
    refine ⟨⟨replaceKey_WF hr hw1, ?_, hw.2.2⟩, ?_⟩
    · have := hw.2.1
      simp only at this ⊢
      rw [this, e]; simp
    intro c c' hc hc' he d' hd'
    simp only [View.addr, ha] at he
    have := hz _ _ (hin c hc) (hin c' hc') he
    simp only [hs', labels_append, labels_cons, List.mem_append, List.mem_cons] at hd'
    by_cases hdt : d' = t
    · subst hdt
      have h1 := this f hf
      rw [upd_same, upd_same] at h1
      simp only [hs, hst, strideOf_mid k2 k1] at h1
      simp only [hs', hst, strideOf_mid k2 ht1]
      exact h1
    · have hdv : d' ∈ labels pre ∨ d' ∈ labels post := by tauto
      have hne : d' ≠ f := by
        rintro rfl
        rcases hdv with h | h
        · exact k1 h
        · exact k4 h
      have h1 := this d' (by
        simp only [hs, labels_append, labels_cons, List.mem_append, List.mem_cons]; tauto)
      rw [upd_ne hne, upd_ne hne] at h1
      have hst' : strideOf s' v.strides d' = strideOf s v.strides d' := by
        rw [hs', hs, hst]
        exact strideOf_outside (mid := [(t, m)]) (mid' := [(f, m)]) (smid := [x]) (smid' := [x]) k2 rfl rfl
          (by simpa using hdt) (by simpa using hne)
      simp only [hst']
      exact h1
  have all : ∀ (ns : List (Dim × Dim)) (s s' : Dims), View.WF ⟨s, v.strides, v.offset, v.readonly⟩ ∧
      ZeroShared ⟨s, v.strides, v.offset, v.readonly⟩ →
      renameDims s ns b = .ok s' → ZeroShared ⟨s', v.strides, v.offset, v.readonly⟩ := by
    intro ns
    induction ns with
    | nil => intro s s' hg h; simp [renameDims] at h; exact h ▸ hg.2
    | cons p ns ih =>
      intro s s' hg h
      simp only [renameDims] at h
      split at h
      · simp only [bind, Except.bind] at h
        split at h
        · simp at h
        rename_i s1 hs1
        exact ih s1 s' (step s s1 p.1 p.2 hg hs1) h
      · split at h
        · simp at h
        · exact ih s s' hg h
  exact all ns v.dims dims (by cases v; exact ⟨hg.1, hz⟩) hd

theorem squeeze_zeroShared {n : Int} {v v' : View} {s : Option (List Dim)} (hg : GoodView n v)
    (hz : ZeroShared v) (h : v.squeeze s = .ok v') : ZeroShared v' := by
  simp only [View.squeeze, bind, Except.bind] at h
  split at h
  · simp at h
  rename_i ds hds
  clear hds
  induction ds generalizing v with
  | nil => simp [pure, Except.pure] at h; exact h ▸ hz
  | cons d ds ih =>
    simp only [List.foldlM_cons, bind, Except.bind] at h
    split at h
    · simp at h
    rename_i v1 hv1
    exact ih (slice_good hg (.inr (by simp [Slice.point])) hv1)
      (slice_zeroShared hg.1 hz (.inr (by simp [Slice.point])) hv1) h

theorem viewOf_zeroShared {n : Int} {v : View} (h : ViewOf n v) : ZeroShared v := by
  induction h with
  | fresh hw hn => exact ZeroShared.of_distinct (fresh_distinct hw.1)
  | noSlice _ h ih => exact noSlice_eq h ▸ ih
  | slice hv hp h ih => exact slice_zeroShared (viewOf_good hv).1 ih hp h
  | transpose hv h ih => exact transpose_zeroShared (viewOf_good hv).1 ih h
  | broadcast hv ht h ih => exact broadcast_zeroShared (viewOf_good hv).1 ih ht h
  | fold hv h ih => exact fold_zeroShared (viewOf_good hv) ih h
  | flatten hv h ih => exact flatten_zeroShared (viewOf_good hv) ih h
  | rename hv h ih => exact rename_zeroShared (viewOf_good hv) ih h
  | asConst _ ih => exact ih
  | squeeze hv h ih => exact squeeze_zeroShared (viewOf_good hv) ih h

theorem ZeroShared.distinct {v : View} (hz : ZeroShared v) (hw : v.WF) (h : ∀ s ∈ v.strides, s ≠ 0) : v.Distinct := by
  intro c c' hc hc' he d hd
  exact (hz c c' hc hc' he d hd).resolve_right (h _ (strideOf_mem hw.2.1 hd))

end Scipp
