import Verif.Lemmas.View
import Mathlib.Data.List.Nodup

namespace Scipp
open Sizes

/-! ### transpose -/

/-- `addrAux` as a function of the list of label/stride pairs. -/
theorem addrAux_zip {s : Dims} {st : List Int} (h : st.length = s.length) (c : Dim → Int) :
    addrAux s st c = addrAux ((labels s).zip st) (shape ((labels s).zip st)) c := by
  induction s generalizing st with
  | nil => simp
  | cons p s ih => cases st with
    | nil => simp at h
    | cons x st =>
      simp only [labels_cons, List.zip_cons_cons, shape_cons, addrAux_cons]
      rw [ih (by simpa using h)]

theorem addrAux_labels {a b : Dims} {st : List Int} (h : labels a = labels b) (c : Dim → Int) :
    addrAux a st c = addrAux b st c := by
  induction a generalizing b st with
  | nil => cases b with
    | nil => rfl
    | cons _ _ => simp at h
  | cons p a ih => cases b with
    | nil => simp at h
    | cons q b =>
      simp only [labels_cons, List.cons.injEq] at h
      cases st with
      | nil => simp [addrAux]
      | cons x st => rw [addrAux_cons, addrAux_cons, ih h.2, h.1]

theorem addrAux_perm {a b : Dims} (h : a.Perm b) (c : Dim → Int) :
    addrAux a (shape a) c = addrAux b (shape b) c := by
  induction h with
  | nil => rfl
  | cons _ _ ih => simp [ih]
  | swap => simp; ring
  | trans _ _ h1 h2 => exact h1.trans h2

@[simp] theorem labels_zip {l : List Dim} {st : List Int} (h : st.length = l.length) :
    labels (l.zip st) = l := by
  simp only [labels]
  rw [List.map_fst_zip]; omega

@[simp] theorem shape_zip {l : List Dim} {st : List Int} (h : st.length = l.length) :
    shape (l.zip st) = st := by
  simp only [shape]
  rw [List.map_snd_zip]; omega

theorem zip_labels_shape (s : Dims) : (labels s).zip (shape s) = s := by
  induction s with
  | nil => rfl
  | cons p s ih => simp [ih]

theorem mapM_at?_ok {s : Dims} : ∀ {ls : List Dim} {sh : List Int},
    ls.mapM (fun d => Sizes.at? s d) = .ok sh → sh.length = ls.length ∧ ∀ p ∈ ls.zip sh, p ∈ s
  | [], sh, h => by
    simp [pure, Except.pure] at h; subst h; simp
  | d :: ls, sh, h => by
    simp only [List.mapM_cons, bind, Except.bind] at h
    split at h
    · simp at h
    rename_i x hx
    split at h
    · simp at h
    rename_i xs hxs
    simp only [pure, Except.pure, Except.ok.injEq] at h
    subst h
    obtain ⟨h1, h2⟩ := mapM_at?_ok hxs
    refine ⟨by simp [h1], ?_⟩
    intro p hp
    simp only [List.zip_cons_cons, List.mem_cons] at hp
    rcases hp with hp | hp
    · rw [hp]; exact at?_ok_mem hx
    · exact h2 p hp

theorem mapM_at?_exists {s : Dims} : ∀ {ls : List Dim}, (∀ d ∈ ls, d ∈ labels s) →
    ∃ sh, ls.mapM (fun d => Sizes.at? s d) = .ok sh
  | [], _ => ⟨[], rfl⟩
  | d :: ls, h => by
    obtain ⟨x, hx⟩ := at?_ok_of_mem_labels (h d (by simp))
    obtain ⟨sh, hsh⟩ := mapM_at?_exists (ls := ls) (fun e he => h e (by simp [he]))
    exact ⟨x :: sh, by simp [List.mapM_cons, hx, hsh, bind, Except.bind, pure, Except.pure]⟩

theorem transposeImpl_ok {s t : Dims} {ls : List Dim} (h : Dims.transposeImpl s ls = .ok t) :
    labels t = ls ∧ t.Perm s ∧ Dim.invalid ∉ ls := by
  simp only [Dims.transposeImpl] at h
  split at h
  · simp at h
  rename_i hl
  simp only [bind, Except.bind] at h
  split at h
  · simp at h
  rename_i sh hsh
  obtain ⟨h1, h2⟩ := mapM_at?_ok hsh
  simp only [Dims.ofLabels] at h
  split at h
  · simp at h
  obtain ⟨h3, h4, h5, h6⟩ := Dims.foldlM_addInner_ok _ _ _ h
  simp only [List.nil_append] at h3 h6
  subst h3
  rw [labels_zip h1] at h5 h6 ⊢
  have h6 := h6 (by simp)
  refine ⟨rfl, ?_, h5⟩
  have hnd : (ls.zip sh).Nodup := by
    have : ((ls.zip sh).map Prod.fst).Nodup := by
      have := labels_zip h1
      simp only [labels] at this
      rw [this]; exact h6
    exact List.Nodup.of_map _ this
  have hsub : (ls.zip sh).Subperm s := List.subperm_of_subset hnd h2
  apply hsub.perm_of_length_le
  simp [h1]; omega

theorem transposeImpl_exists {s : Dims} {ls : List Dim} (hw : Sizes.WF s)
    (hi : Dim.invalid ∉ ls) (hp : ls.Perm (labels s)) : ∃ t, Dims.transposeImpl s ls = .ok t := by
  have hl : ls.length = s.length := by rw [hp.length_eq]; simp
  obtain ⟨sh, hsh⟩ := mapM_at?_exists (s := s) (ls := ls) (fun d hd => hp.mem_iff.1 hd)
  obtain ⟨h1, h2⟩ := mapM_at?_ok hsh
  have hz := labels_zip h1
  refine ⟨ls.zip sh, ?_⟩
  simp only [Dims.transposeImpl, hl, ne_eq, not_true, if_false, bind, Except.bind, hsh, Dims.ofLabels, h1]
  have := Dims.foldlM_addInner_eq (ls.zip sh) [] (by
    rw [List.nil_append, hz]; exact hp.nodup_iff.2 hw.1) (fun p hp => hw.2 p (h2 p hp)) (by rw [hz]; exact hi)
  simpa using this

/-- The order actually applied by `transpose`: reversed if none given. -/
def effOrder (s : Dims) (order : List Dim) : List Dim :=
  if order = [] then (labels s).reverse else order

theorem transpose_eff (s : Dims) (order : List Dim) :
    Dims.transpose s order = Dims.transposeImpl s (effOrder s order) := by
  simp only [Dims.transpose, effOrder, List.isEmpty_iff]
  split <;> rfl

/-- Replacing the extents by the strides. -/
theorem resize_all : ∀ (s pre : Dims) (st : List Int), (labels (pre ++ s)).Nodup →
    st.length = s.length → (∀ x ∈ st, 0 ≤ x) →
    ((labels s).zip st).foldlM (fun (s : Dims) p => Sizes.resize s p.1 p.2) (pre ++ s) =
      .ok (pre ++ (labels s).zip st)
  | [], pre, st, _, _, _ => by simp [pure, Except.pure]
  | p :: s, pre, [], _, hl, _ => by simp at hl
  | p :: s, pre, x :: st, hn, hl, h0 => by
    have hx : 0 ≤ x := h0 x (by simp)
    obtain ⟨h1, _⟩ := nodup_mid (n := p.2) hn
    have ha : Sizes.resize (pre ++ p :: s) p.1 x = .ok (pre ++ (p.1, x) :: s) := by
      rw [Sizes.resize, if_neg (by omega)]
      exact assign_mid h1
    simp only [labels_cons, List.zip_cons_cons, List.foldlM_cons, bind, Except.bind, ha]
    have := resize_all s (pre ++ [(p.1, x)]) st (by simpa using hn) (by simpa using hl)
      (fun y hy => h0 y (List.mem_cons_of_mem _ hy))
    simpa using this

theorem zip_WF {l : List Dim} {st : List Int} (hn : l.Nodup) (hl : st.length = l.length)
    (h0 : ∀ x ∈ st, 0 ≤ x) : Sizes.WF (l.zip st) := by
  refine ⟨by rw [labels_zip hl]; exact hn, fun p hp => h0 p.2 (List.of_mem_zip hp).2⟩

theorem transposeStrides_eq {v : View} (hw : v.WF) (order : List Dim) :
    transposeStrides v.strides v.dims order =
      (Dims.transposeImpl ((labels v.dims).zip v.strides) (effOrder v.dims order)).map shape := by
  have h := resize_all v.dims [] v.strides (by simpa using hw.1.1) hw.2.1 hw.2.2
  simp only [List.nil_append] at h
  simp only [transposeStrides, h, bind, Except.bind, transpose_eff]
  have : effOrder ((labels v.dims).zip v.strides) order = effOrder v.dims order := by
    simp only [effOrder, labels_zip (show v.strides.length = (labels v.dims).length by simp [hw.2.1])]
  rw [this]
  cases Dims.transposeImpl ((labels v.dims).zip v.strides) (effOrder v.dims order) <;> rfl

theorem shape_nonneg_of_perm {a b : Dims} (hp : a.Perm b) (h : ∀ x ∈ shape b, 0 ≤ x) :
    ∀ x ∈ shape a, 0 ≤ x := fun x hx => h x ((hp.map Prod.snd).mem_iff.1 hx)

/-- Complete description of a successful transpose. -/
theorem View.transpose_ok {v v' : View} {order : List Dim} (hw : v.WF)
    (h : v.transpose order = .ok v') :
    labels v'.dims = effOrder v.dims order ∧ v'.dims.Perm v.dims ∧
    ((labels v'.dims).zip v'.strides).Perm ((labels v.dims).zip v.strides) ∧
    v'.offset = v.offset ∧ v'.readonly = v.readonly ∧ v'.WF ∧ Dim.invalid ∉ effOrder v.dims order := by
  have hl : v.strides.length = (labels v.dims).length := by simp [hw.2.1]
  simp only [View.transpose, bind, Except.bind, transposeStrides_eq hw, transpose_eff] at h
  cases h1 : Dims.transposeImpl ((labels v.dims).zip v.strides) (effOrder v.dims order) with
  | error e => simp [h1, Except.map] at h
  | ok t =>
    cases h2 : Dims.transposeImpl v.dims (effOrder v.dims order) with
    | error e => simp [h1, h2, Except.map] at h
    | ok t' =>
      simp only [h1, h2, Except.map, Except.ok.injEq] at h
      subst h
      obtain ⟨a1, a2, a3⟩ := transposeImpl_ok h1
      obtain ⟨b1, b2, _⟩ := transposeImpl_ok h2
      have hz : (labels t').zip (shape t) = t := by rw [b1, ← a1, zip_labels_shape]
      refine ⟨b1, b2, ?_, rfl, rfl, ?_, a3⟩
      · simp only [hz]; exact a2
      · refine ⟨⟨?_, ?_⟩, ?_, ?_⟩
        · exact ((b2.map Prod.fst).nodup_iff).2 hw.1.1
        · exact fun p hp => hw.1.2 p (b2.mem_iff.1 hp)
        · have e1 : (labels t').length = t'.length := by simp
          have e2 : (labels t).length = t.length := by simp
          simp only [length_shape]
          rw [← e1, ← e2, b1, a1]
        · apply shape_nonneg_of_perm a2
          rw [shape_zip hl]
          exact hw.2.2

theorem View.transpose_addr {v v' : View} {order : List Dim} (hw : v.WF)
    (h : v.transpose order = .ok v') (c : Dim → Int) : v'.addr c = v.addr c := by
  obtain ⟨_, _, h3, h4, _, h6, _⟩ := transpose_ok hw h
  rw [View.addr, View.addr, h4, addrAux_zip h6.2.1, addrAux_zip hw.2.1, addrAux_perm h3]

theorem View.transpose_exists {v : View} {order : List Dim} (hw : v.WF)
    (hi : Dim.invalid ∉ labels v.dims) (hp : (effOrder v.dims order).Perm (labels v.dims)) :
    ∃ v', v.transpose order = .ok v' := by
  have hl : v.strides.length = (labels v.dims).length := by simp [hw.2.1]
  have hi' : Dim.invalid ∉ effOrder v.dims order := fun e => hi (hp.mem_iff.1 e)
  obtain ⟨t, ht⟩ := transposeImpl_exists (zip_WF hw.1.1 hl hw.2.2) hi' (by rw [labels_zip hl]; exact hp)
  obtain ⟨t', ht'⟩ := transposeImpl_exists hw.1 hi' hp
  exact ⟨_, by simp only [View.transpose, bind, Except.bind, transposeStrides_eq hw, transpose_eff,
    ht, ht', Except.map]; rfl⟩

/-- Two pair lists with the same distinct labels and the same content are equal. -/
theorem eq_of_perm_labels : ∀ {a b : Dims}, a.Perm b → labels a = labels b → (labels a).Nodup → a = b
  | [], b, h, _, _ => by simpa using h
  | p :: a, [], h, _, _ => by simp at h
  | p :: a, q :: b, h, hl, hn => by
    simp only [labels_cons, List.cons.injEq] at hl
    simp only [labels_cons, List.nodup_cons] at hn
    have hpq : p = q := by
      have : p ∈ q :: b := h.mem_iff.1 (by simp)
      rcases List.mem_cons.1 this with e | e
      · exact e
      · exfalso
        apply hn.1
        rw [hl.2]
        exact List.mem_map.2 ⟨p, e, rfl⟩
    subst hpq
    rw [eq_of_perm_labels ((List.perm_cons _).1 h) hl.2 hn.2]

/-! ### fold -/

theorem foldOuter_ok (from_ : Dim) (tg : Dims) : ∀ (old s new : Dims),
    old.foldlM (fun (s : Dims) p => if p.1 ≠ from_ then Dims.addInner s p.1 p.2
      else tg.foldlM (fun s q => Dims.addInner s q.1 q.2) s) s = .ok new →
    new = s ++ old.flatMap (fun p => if p.1 = from_ then tg else [p])
  | [], s, new, h => by simp [pure, Except.pure] at h; simp [h]
  | p :: old, s, new, h => by
    simp only [List.foldlM_cons, bind, Except.bind] at h
    split at h
    · simp at h
    rename_i r hr
    have := foldOuter_ok from_ tg old r new h
    rw [this]
    split at hr
    · rename_i hp
      obtain ⟨rfl, _⟩ := Dims.addInner_ok hr
      simp [hp]
    · rename_i hp
      obtain ⟨rfl, _⟩ := Dims.foldlM_addInner_ok _ _ _ hr
      have hp : p.1 = from_ := by simpa using hp
      simp [hp]

theorem foldOuter_eq (from_ : Dim) (tg : Dims) (ht : ∀ p ∈ tg, 0 ≤ p.2) (hti : Dim.invalid ∉ labels tg) :
    ∀ (old s : Dims), (labels (s ++ old.flatMap (fun p => if p.1 = from_ then tg else [p]))).Nodup →
    (∀ p ∈ old, 0 ≤ p.2) → Dim.invalid ∉ labels old →
    old.foldlM (fun (s : Dims) p => if p.1 ≠ from_ then Dims.addInner s p.1 p.2
      else tg.foldlM (fun s q => Dims.addInner s q.1 q.2) s) s =
      .ok (s ++ old.flatMap (fun p => if p.1 = from_ then tg else [p]))
  | [], s, _, _, _ => by simp [pure, Except.pure]
  | p :: old, s, hn, h0, hi => by
    simp only [labels_cons, List.mem_cons, not_or] at hi
    simp only [List.foldlM_cons, bind, Except.bind]
    simp only [List.flatMap_cons] at hn ⊢
    have h0' : ∀ q ∈ old, 0 ≤ q.2 := fun q hq => h0 q (List.mem_cons_of_mem _ hq)
    by_cases hp : p.1 = from_
    · simp only [hp, if_true, ne_eq, not_true, if_false] at hn ⊢
      rw [← List.append_assoc] at hn ⊢
      have h1 := Dims.foldlM_addInner_eq tg s (by
        rw [labels_append] at hn; exact (List.nodup_append.1 hn).1) ht hti
      rw [h1]
      exact foldOuter_eq from_ tg ht hti old (s ++ tg) hn h0' hi.2
    · simp only [hp, if_false, ne_eq, not_false_eq_true, if_true] at hn ⊢
      rw [← List.append_assoc] at hn ⊢
      have hps : p.1 ∉ labels s := by
        rw [labels_append] at hn
        have := (List.nodup_append.1 hn).1
        simp only [labels_append, labels_cons, labels_nil] at this
        exact fun e => (List.nodup_append.1 this).2.2 _ e _ (by simp) rfl
      rw [Dims.addInner_eq hps (h0 p (by simp)) (Ne.symm hi.1)]
      exact foldOuter_eq from_ tg ht hti old (s ++ [p]) hn h0' hi.2

theorem flatMap_absent {d : Dim} {tg old : Dims} (h : d ∉ labels old) :
    old.flatMap (fun p => if p.1 = d then tg else [p]) = old := by
  induction old with
  | nil => rfl
  | cons p old ih =>
    simp only [labels_cons, List.mem_cons, not_or] at h
    simp [Ne.symm h.1, ih h.2]

theorem flatMap_mid {pre post tg : Dims} {d : Dim} {n : Int} (h1 : d ∉ labels pre) (h2 : d ∉ labels post) :
    (pre ++ (d, n) :: post).flatMap (fun p => if p.1 = d then tg else [p]) = pre ++ tg ++ post := by
  simp [List.flatMap_append, List.flatMap_cons, flatMap_absent h1, flatMap_absent h2]

theorem foldStrides_absent {d : Dim} {sub : List Int} : ∀ {s : Dims} {st : List Int},
    d ∉ labels s → st.length = s.length → foldStrides d sub s st = st
  | [], st, _, h => by simp [foldStrides] at h ⊢; simp_all
  | p :: s, [], _, h => by simp at h
  | p :: s, x :: st, h1, h2 => by
    simp only [labels_cons, List.mem_cons, not_or] at h1
    simp [foldStrides, Ne.symm h1.1, foldStrides_absent h1.2 (by simpa using h2)]

theorem foldStrides_mid {pre post : Dims} {spre spost sub : List Int} {d : Dim} {n x : Int}
    (h1 : d ∉ labels pre) (h2 : d ∉ labels post) (hl : spre.length = pre.length)
    (hl' : spost.length = post.length) :
    foldStrides d sub (pre ++ (d, n) :: post) (spre ++ x :: spost) =
      spre ++ sub.map (x * ·) ++ spost := by
  induction pre generalizing spre with
  | nil =>
    have : spre = [] := by simpa using hl
    subst this
    simp [foldStrides, foldStrides_absent h2 hl']
  | cons p pre ih => cases spre with
    | nil => simp at hl
    | cons y spre =>
      simp only [labels_cons, List.mem_cons, not_or] at h1
      simp [foldStrides, Ne.symm h1.1, ih h1.2 (by simpa using hl)]

/-- Successful fold, explicitly. -/
theorem View.fold_ok {v v' : View} {d : Dim} {tg : Dims} (hw : v.WF) (h : v.fold d tg = .ok v') :
    ∃ pre n post spre x spost,
      v = ⟨pre ++ (d, n) :: post, spre ++ x :: spost, v.offset, v.readonly⟩ ∧
      d ∉ labels pre ∧ d ∉ labels post ∧ spre.length = pre.length ∧ spost.length = post.length ∧
      v' = ⟨pre ++ tg ++ post, spre ++ (rowMajor (shape tg)).map (x * ·) ++ spost, v.offset, v.readonly⟩ ∧
      Dims.volume v.dims = Dims.volume v'.dims ∧ Sizes.WF (pre ++ tg ++ post) := by
  simp only [View.fold, bind, Except.bind] at h
  split at h
  · simp at h
  rename_i dims hd
  injection h with h
  have hwf := Dims.fold_WF hd
  simp only [Dims.fold] at hd
  split at hd
  · simp at hd
  rename_i hc
  have hc : d ∈ labels v.dims := by
    rw [← contains_iff]; simpa using hc
  obtain ⟨pre, n, post, spre, x, spost, hv, h1, h2, h3⟩ := View.split hw.2.1 hc
  obtain ⟨_, h4, _⟩ := nodup_mid (by have := hw.1.1; rw [hv] at this; exact this)
  simp only [bind, Except.bind] at hd
  split at hd
  · simp at hd
  rename_i new hnew
  split at hd
  · simp at hd
  rename_i hvol
  injection hd with hd
  have := foldOuter_ok d tg _ _ _ hnew
  rw [hv] at this
  simp only [List.nil_append, flatMap_mid h1 h4] at this
  refine ⟨pre, n, post, spre, x, spost, hv, h1, h4, h2, h3, ?_, ?_, ?_⟩
  · rw [← h]
    have e : foldStrides d (rowMajor (shape tg)) v.dims v.strides =
        spre ++ (rowMajor (shape tg)).map (x * ·) ++ spost := by
      rw [hv]; exact foldStrides_mid h1 h4 h2 h3
    rw [e, ← hd, this]
  · rw [← h, ← hd]; simpa using hvol
  · rw [← this, hd]; exact hwf

theorem View.fold_addr {v v' : View} {d : Dim} {tg : Dims} (hw : v.WF) (h : v.fold d tg = .ok v')
    (c : Dim → Int) : v'.addr c = v.addr (upd c d (position tg c)) := by
  obtain ⟨pre, n, post, spre, x, spost, hv, h1, h2, h3, h4, hv', _⟩ := View.fold_ok hw h
  rw [hv', hv]
  simp only [View.addr]
  rw [addrAux_append (by simp [h3]), addrAux_append h3, addrAux_mul, ← position_eq,
    addrAux_mid h3, addrAux_upd h1, addrAux_upd h2, upd_same]
  ring

/-! ### broadcast -/

theorem includes_iff {t s : Dims} (ht : (labels t).Nodup) (hs : (labels s).Nodup) :
    Sizes.includes t s = true ↔ ∀ p ∈ s, p ∈ t := by
  simp only [Sizes.includes, List.all_eq_true, Bool.and_eq_true, decide_eq_true_eq]
  constructor
  · intro h p hp
    obtain ⟨h1, h2⟩ := h p hp
    rw [at?_of_mem hs (show (p.1, p.2) ∈ s from hp)] at h2
    exact at?_ok_mem h2
  · intro h p hp
    have hp' := h p hp
    refine ⟨contains_iff.2 (mem_labels (x := p.2) hp'), ?_⟩
    rw [at?_of_mem hs (show (p.1, p.2) ∈ s from hp), at?_of_mem ht (show (p.1, p.2) ∈ t from hp')]

/-- Stride of a label (0 if absent). -/
def strideOf : Dims → List Int → Dim → Int
  | (d, _) :: s, x :: st, e => if d = e then x else strideOf s st e
  | _, _, _ => 0

theorem strideOf_index {s : Dims} {st : List Int} {d : Dim} (hl : st.length = s.length) (h : d ∈ labels s) :
    ∃ i, index s d = .ok i ∧ st.getD i 0 = strideOf s st d := by
  induction s generalizing st with
  | nil => simp at h
  | cons p s ih => cases st with
    | nil => simp at hl
    | cons x st =>
      by_cases hp : p.1 = d
      · exact ⟨0, by simp [index, hp], by simp [strideOf, hp]⟩
      · have h' : d ∈ labels s := by
          simp only [labels_cons, List.mem_cons] at h
          exact h.resolve_left (fun e => hp e.symm)
        obtain ⟨i, h1, h2⟩ := ih (by simpa using hl) h'
        exact ⟨i + 1, by simp [index, hp, h1, Except.map], by
          simp only [strideOf, hp, if_false, List.getD_cons_succ, h2]⟩

theorem strideOf_absent {s : Dims} {st : List Int} {d : Dim} (h : d ∉ labels s) : strideOf s st d = 0 := by
  induction s generalizing st with
  | nil => rfl
  | cons p s ih => cases st with
    | nil => rfl
    | cons x st =>
      simp only [labels_cons, List.mem_cons, not_or] at h
      simp [strideOf, Ne.symm h.1, ih h.2]

theorem broadcast_mapM {v : View} (hw : v.WF) (ls : List Dim) :
    ls.mapM (fun d => if Sizes.contains v.dims d then do
        let i ← Sizes.index v.dims d
        .ok (v.strides.getD i 0)
      else .ok 0) = (Except.ok (ls.map (strideOf v.dims v.strides)) : Except Err (List Int)) := by
  induction ls with
  | nil => rfl
  | cons d ls ih =>
    simp only [List.mapM_cons, ih, List.map_cons]
    by_cases h : d ∈ labels v.dims
    · obtain ⟨i, h1, h2⟩ := strideOf_index hw.2.1 h
      simp [contains_iff.2 h, h1, bind, Except.bind, pure, Except.pure, ← h2]
    · simp [contains_false.2 h, strideOf_absent h, bind, Except.bind, pure, Except.pure]

theorem View.broadcast_eq {v : View} {t : Dims} (hw : v.WF) (ht : (labels t).Nodup)
    (hi : ∀ p ∈ v.dims, p ∈ t) : v.broadcast t = .ok ⟨t, (labels t).map (strideOf v.dims v.strides), v.offset,
      if Dims.volume t = Dims.volume v.dims then v.readonly else true⟩ := by
  have h : ¬ Sizes.includes t v.dims = false := by
    rw [(includes_iff ht hw.1.1).2 hi]; simp
  rw [View.broadcast, if_neg h, broadcast_mapM hw]
  rfl

theorem View.broadcast_ok {v v' : View} {t : Dims} (hw : v.WF) (ht : (labels t).Nodup)
    (h : v.broadcast t = .ok v') : (∀ p ∈ v.dims, p ∈ t) ∧
    v' = ⟨t, (labels t).map (strideOf v.dims v.strides), v.offset,
      if Dims.volume t = Dims.volume v.dims then v.readonly else true⟩ := by
  have hi : ∀ p ∈ v.dims, p ∈ t := by
    rw [← includes_iff ht hw.1.1]
    simp only [View.broadcast] at h
    split at h
    · simp at h
    · rename_i hc; simpa using hc
  rw [broadcast_eq hw ht hi] at h
  injection h with h
  exact ⟨hi, h.symm⟩

theorem strideOf_nonneg {s : Dims} {st : List Int} (h : ∀ x ∈ st, 0 ≤ x) (d : Dim) :
    0 ≤ strideOf s st d := by
  induction s generalizing st with
  | nil => simp [strideOf]
  | cons p s ih => cases st with
    | nil => simp [strideOf]
    | cons x st =>
      simp only [strideOf]
      split
      · exact h x (by simp)
      · exact ih (fun y hy => h y (List.mem_cons_of_mem _ hy))

theorem addrAux_map_strideOf_cons {p : Dim × Int} {s t : Dims} {x : Int} {st : List Int} (c : Dim → Int)
    (hp : p.1 ∉ labels s) (ht : (labels t).Nodup) :
    addrAux t ((labels t).map (strideOf (p :: s) (x :: st))) c =
      (if p.1 ∈ labels t then c p.1 * x else 0) + addrAux t ((labels t).map (strideOf s st)) c := by
  induction t with
  | nil => simp
  | cons q t ih =>
    simp only [labels_cons, List.nodup_cons] at ht
    simp only [labels_cons, List.map_cons, addrAux_cons, ih ht.2]
    by_cases hq : p.1 = q.1
    · have : p.1 ∉ labels t := hq ▸ ht.1
      have h0 : strideOf s st q.1 = 0 := strideOf_absent (hq ▸ hp)
      have h1 : strideOf (p :: s) (x :: st) q.1 = x := by simp [strideOf, hq]
      simp [h0, h1, hq, ht.1]
    · have h1 : strideOf (p :: s) (x :: st) q.1 = strideOf s st q.1 := by simp [strideOf, hq]
      simp only [h1, List.mem_cons, hq, false_or]
      ring

/-- Broadcasting keeps the address of every element. -/
theorem addrAux_broadcast {s t : Dims} {st : List Int} (c : Dim → Int) (hl : st.length = s.length)
    (hs : (labels s).Nodup) (ht : (labels t).Nodup) (hi : ∀ d ∈ labels s, d ∈ labels t) :
    addrAux t ((labels t).map (strideOf s st)) c = addrAux s st c := by
  induction s generalizing st with
  | nil =>
    have : ∀ l : List Dim, ∀ t' : Dims, addrAux t' (l.map (strideOf [] st)) c = 0 := by
      intro l
      induction l with
      | nil => intro t'; cases t' <;> simp [addrAux]
      | cons d l ih => intro t'; cases t' with
        | nil => simp
        | cons q t' => simp [strideOf] at ih ⊢; exact ih t'
    rw [this]; simp
  | cons p s ih => cases st with
    | nil => simp at hl
    | cons x st =>
      simp only [labels_cons, List.nodup_cons] at hs
      rw [addrAux_map_strideOf_cons c hs.1 ht, if_pos (hi p.1 (by simp)), addrAux_cons,
        ih (by simpa using hl) hs.2 (fun d hd => hi d (by simp [hd]))]

/-- Volume of an including set of dims: product with the rest. -/
theorem volume_includes {s t : Dims} (hs : (labels s).Nodup) (ht : (labels t).Nodup) (hi : ∀ p ∈ s, p ∈ t) :
    t.Perm (s ++ t.filter (fun p => !Sizes.contains s p.1)) := by
  have hnd : t.Nodup := List.Nodup.of_map Prod.fst ht
  have hsn : s.Nodup := List.Nodup.of_map Prod.fst hs
  rw [List.perm_ext_iff_of_nodup hnd]
  · intro p
    simp only [List.mem_append, List.mem_filter, Bool.not_eq_true']
    constructor
    · intro hp
      by_cases h : p.1 ∈ labels s
      · left
        obtain ⟨x, hx⟩ := at?_ok_of_mem_labels h
        have hx := at?_ok_mem hx
        have e1 := at?_of_mem ht (hi _ hx)
        have e2 := at?_of_mem ht (show (p.1, p.2) ∈ t from hp)
        rw [e1] at e2
        injection e2 with e2
        rw [e2] at hx; exact hx
      · exact .inr ⟨hp, contains_false.2 h⟩
    · rintro (h | h)
      · exact hi p h
      · exact h.1
  · rw [List.nodup_append]
    refine ⟨hsn, hnd.filter _, ?_⟩
    intro a ha b hb e
    simp only [List.mem_filter, Bool.not_eq_true'] at hb
    exact contains_false.1 hb.2 (e ▸ mem_labels (x := a.2) ha)

end Scipp
