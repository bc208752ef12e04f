import Verif.Lemmas.Masks2
import Mathlib.Algebra.BigOperators.Group.Finset.Basic
/-!
Lemmas about reductions of masked arrays.
-/
namespace Scipp
open Scipp.Sizes Scipp.Props

theorem erase_eq_filter : ∀ {s : Dims} {d : Dim}, (labels s).Nodup → d ∈ labels s →
    Sizes.erase s d = .ok (s.filter (fun p => decide (p.1 ≠ d)))
  | [], d, _, h => by simp at h
  | (k, v) :: s, d, hn, h => by
    simp only [labels_cons, List.nodup_cons] at hn
    simp only [Sizes.erase]
    by_cases hk : k = d
    · subst hk
      rw [if_pos rfl]
      simp only [List.filter_cons, ne_eq, not_true, decide_false, Bool.false_eq_true, if_false]
      refine congrArg Except.ok (List.filter_eq_self.2 ?_).symm
      intro p hp
      simp only [decide_eq_true_eq]
      rintro rfl
      exact hn.1 (mem_labels (x := p.2) hp)
    · rw [if_neg hk, erase_eq_filter hn.2 (by simpa [labels_cons, Ne.symm hk] using h)]
      simp [Except.map, hk]

theorem labels_filter_mem {s : Dims} {d e : Dim} : e ∈ labels (s.filter (fun p => decide (p.1 ≠ d))) ↔ e ∈ labels s ∧ e ≠ d := by
  simp only [labels, List.mem_map, List.mem_filter, decide_eq_true_eq]
  constructor
  · rintro ⟨p, ⟨h1, h2⟩, rfl⟩; exact ⟨⟨p, h1, rfl⟩, h2⟩
  · rintro ⟨⟨p, h1, rfl⟩, h2⟩; exact ⟨p, ⟨h1, h2⟩, rfl⟩

variable {V W : Type}

theorem reduceDim_eq (op : W → V → W) (init : W) {a : Arr V} (ha : a.Ok) {dim : Dim} {n : Int} (hd : (dim, n) ∈ a.dims) :
    reduceDim op init a dim = .ok ⟨a.dims.filter (fun p => decide (p.1 ≠ dim)),
      fun c => (intRange 0 n).foldl (fun acc j => op acc (a.val (upd c dim j))) init⟩ := by
  unfold reduceDim
  rw [at?_of_mem ha.wf.1 hd, erase_eq_filter ha.wf.1 (mem_labels hd)]

theorem reduceDim_ok (op : W → V → W) (init : W) {a : Arr V} (ha : a.Ok) {dim : Dim} (n : Int) :
    (⟨a.dims.filter (fun p => decide (p.1 ≠ dim)),
      fun c => (intRange 0 n).foldl (fun acc j => op acc (a.val (upd c dim j))) init⟩ : Arr W).Ok := by
  refine ⟨sublist_WF List.filter_sublist ha.wf, fun h => ha.valid (labels_filter_mem.1 h).1, fun c c' hcc => ?_⟩
  have : ∀ j, a.val (upd c dim j) = a.val (upd c' dim j) := by
    intro j
    refine ha.own _ _ (fun d hd => ?_)
    unfold upd
    by_cases he : d = dim
    · simp [he]
    · simp only [he, if_false]; exact hcc d (labels_filter_mem.2 ⟨hd, he⟩)
  simp only [this]

/-- The union of the masks depending on `dim`. -/
theorem irreducible_loop {D : Dims} (hD : WF D) {dim : Dim} : ∀ (l : List (Dim × MaskVar)) (u : Option MaskVar),
    (∀ p ∈ l, p.2.arr.Ok ∧ p.2.Plain ∧ ∀ q ∈ p.2.arr.dims, q ∈ D) →
    (∀ m, u = some m → m.arr.Ok ∧ m.Plain ∧ (∀ q ∈ m.arr.dims, q ∈ D) ∧ dim ∈ labels m.arr.dims) →
    ∃ r, l.foldlM (irreducibleStep dim) u = .ok r ∧
      (∀ m, r = some m → m.arr.Ok ∧ m.Plain ∧ (∀ q ∈ m.arr.dims, q ∈ D) ∧ dim ∈ labels m.arr.dims) ∧
      ∀ c, maskedBy r c = (maskedBy u c || maskedAlong l dim c)
  | [], u, _, hu => ⟨u, rfl, hu, by simp [maskedAlong]⟩
  | q :: l, u, hl, hu => by
    have hq := hl q (by simp)
    have hl' : ∀ p ∈ l, p.2.arr.Ok ∧ p.2.Plain ∧ ∀ q ∈ p.2.arr.dims, q ∈ D := fun p hp => hl p (List.mem_cons_of_mem _ hp)
    simp only [List.foldlM_cons, bind, Except.bind]
    have key : ∃ u', irreducibleStep dim u q = .ok u' ∧
        (∀ m, u' = some m → m.arr.Ok ∧ m.Plain ∧ (∀ q ∈ m.arr.dims, q ∈ D) ∧ dim ∈ labels m.arr.dims) ∧
        ∀ c, maskedBy u' c = (maskedBy u c || (contains q.2.arr.dims dim && q.2.arr.val c)) := by
      unfold irreducibleStep
      by_cases hc : contains q.2.arr.dims dim = true
      · rw [if_pos hc]
        cases u with
        | none =>
          refine ⟨_, rfl, fun m hm => ?_, fun c => ?_⟩
          · cases hm; exact ⟨hq.1, ⟨hq.2.1.bool, hq.2.1.unit⟩, hq.2.2, contains_iff.1 hc⟩
          · simp [maskedBy, MaskVar.copy, hc]
        | some m =>
          obtain ⟨m1, m2, m3, m4⟩ := hu m rfl
          obtain ⟨r, hr⟩ := (or_exists m1 hq.1).2 ⟨m2, hq.2.1, by
            intro d x y hx hy
            exact compatible_of_subset hD (fun p hp => hp) d x y (m3 _ hx) (hq.2.2 _ hy)⟩
          obtain ⟨r1, r2, r3, r4, _, _⟩ := or_ok m1 hq.1 hr
          simp only [hr]
          refine ⟨_, rfl, fun m' hm' => ?_, fun c => ?_⟩
          · cases hm'
            refine ⟨r1, r2, fun p hp => ?_, ?_⟩
            · rcases (r3 p).1 hp with h | h
              · exact m3 p h
              · exact hq.2.2 p h
            · obtain ⟨x, hx⟩ := at?_ok_of_mem_labels m4
              exact mem_labels ((r3 _).2 (.inl (at?_ok_mem hx)))
          · simp [maskedBy, r4, hc]
      · rw [if_neg hc]
        exact ⟨u, rfl, hu, fun c => by simp [hc]⟩
    obtain ⟨u', e, h1, h2⟩ := key
    rw [e]
    obtain ⟨r, e', h1', h2'⟩ := irreducible_loop hD l u' hl' h1
    refine ⟨r, e', h1', fun c => ?_⟩
    rw [h2', h2]
    simp [maskedAlong, Bool.or_assoc]

theorem intersection_of_includes {a b : Dims} (ha : WF a) (hb : WF b) (hai : Dim.invalid ∉ labels a) (h : ∀ p ∈ b, p ∈ a) :
    Dims.intersection a b = .ok (a.filter (fun p => contains b p.1)) := by
  unfold Dims.intersection
  rw [merge_of_includes ha hb hai h]
  simp only [bind, Except.bind]
  have key : ∀ (l out : Dims), (∀ p ∈ l, p ∈ a) → (labels (out ++ l)).Nodup →
      (labels l).foldlM (fun out d => if contains a d ∧ contains b d then do
        Dims.addInner out d (← at? a d) else .ok out) out = .ok (out ++ l.filter (fun p => contains b p.1)) := by
    intro l
    induction l with
    | nil => intro out _ _; simp [pure, Except.pure]
    | cons p l ih =>
      intro out hl hn
      have hp := hl p (by simp)
      simp only [labels_cons, List.foldlM_cons, bind, Except.bind]
      have hca : contains a p.1 = true := contains_iff.2 (mem_labels (x := p.2) hp)
      by_cases hcb : contains b p.1 = true
      · rw [if_pos ⟨hca, hcb⟩, at?_of_mem ha.1 (show (p.1, p.2) ∈ a from hp)]
        have hnp : p.1 ∉ labels out := by
          intro hc
          rw [labels_append, labels_cons] at hn
          exact (List.nodup_append.1 hn).2.2 p.1 hc p.1 (by simp) rfl
        simp only [Dims.addInner_eq hnp (ha.2 p hp) (fun he => hai (he ▸ mem_labels (x := p.2) hp))]
        refine (ih (out ++ [(p.1, p.2)]) (fun q hq => hl q (List.mem_cons_of_mem _ hq)) (by simpa using hn)).trans ?_
        simp [hcb]
      · rw [if_neg (by simp [hcb])]
        simp only
        refine (ih out (fun q hq => hl q (List.mem_cons_of_mem _ hq)) (by
          rw [labels_append, labels_cons] at hn
          rw [labels_append]
          exact hn.sublist (List.Sublist.append_left (List.sublist_cons_self _ _) _))).trans ?_
        simp [hcb]
  have := key a [] (fun p hp => hp) (by simpa using ha.1)
  simp only [List.nil_append] at this
  exact this

/-- Transposing a mask into the order of the data. -/
theorem transpose_common {m D : Dims} (hm : WF m) (hmi : Dim.invalid ∉ labels m) (hD : WF D) (h : ∀ p ∈ m, p ∈ D) (hne : m ≠ []) :
    Dims.transpose m (labels (D.filter (fun p => contains m p.1))) = .ok (D.filter (fun p => contains m p.1)) := by
  set f := D.filter (fun p => contains m p.1) with hf
  have hmem : ∀ p, p ∈ f ↔ p ∈ m := by
    intro p
    rw [hf, List.mem_filter]
    constructor
    · rintro ⟨h1, h2⟩
      obtain ⟨x, hx⟩ := at?_ok_of_mem_labels (contains_iff.1 h2)
      have h3 := at?_ok_mem hx
      have : p.2 = x := compatible_of_subset hD (fun q hq => hq) p.1 p.2 x h1 (h _ h3)
      rw [← this] at h3; exact h3
    · intro hp; exact ⟨h p hp, contains_iff.2 (mem_labels (x := p.2) hp)⟩
  have hfw : WF f := sublist_WF List.filter_sublist hD
  have hperm : f.Perm m := (List.perm_ext_iff_of_nodup (List.Nodup.of_map _ hfw.1) (List.Nodup.of_map _ hm.1)).2 hmem
  have hlp : (labels f).Perm (labels m) := hperm.map _
  have hne' : labels f ≠ [] := by
    intro hc
    have hl := hlp.length_eq
    rw [hc] at hl
    simp [labels] at hl
    exact hne (List.length_eq_zero_iff.1 (by omega))
  have hi' : Dim.invalid ∉ labels f := fun hc => hmi (hlp.mem_iff.1 hc)
  obtain ⟨t, ht⟩ := transposeImpl_exists hm hi' hlp
  have he : Dims.transpose m (labels f) = Dims.transposeImpl m (labels f) := by
    rw [transpose_eff]; simp [effOrder, hne']
  rw [he, ht]
  obtain ⟨t1, t2, _⟩ := transposeImpl_ok ht
  refine congrArg Except.ok ?_
  -- same labels in the same order, same entries
  have htw : WF t := ⟨by rw [t1]; exact hfw.1, fun p hp => hm.2 p (t2.mem_iff.1 hp)⟩
  refine List.ext_getElem (by rw [t2.length_eq, hperm.length_eq]) (fun i h1 h2 => ?_)
  have hl : (labels t)[i]'(by simpa [labels] using h1) = (labels f)[i]'(by simpa [labels] using h2) := by
    simp only [t1]
  simp only [labels, List.getElem_map] at hl
  have m1 : t[i] ∈ m := t2.mem_iff.1 (List.getElem_mem h1)
  have m2 : f[i] ∈ m := (hmem _).1 (List.getElem_mem h2)
  have := compatible_of_subset hm (fun q hq => hq) t[i].1 t[i].2 f[i].2 m1 (by rw [hl]; exact m2)
  exact Prod.ext hl this

/-- Reduction along a dim with masks: the masked elements are replaced by the fill value, the dims keep their order. -/
theorem reduceImpl_eq (op : W → V → W) (init : W) (fill : V) {a : MaskedArr V} (ha : a.Ok) {dim : Dim} {n : Int}
    (hd : (dim, n) ∈ a.data.dims) :
    ∃ r, reduceImpl op init fill a.data a.masks dim = .ok r ∧ r.Ok ∧
      r.dims = a.data.dims.filter (fun p => decide (p.1 ≠ dim)) ∧
      ∀ c, r.val c = (intRange 0 n).foldl (fun acc j => op acc
        (if maskedAlong a.masks dim (upd c dim j) then fill else a.data.val (upd c dim j))) init := by
  obtain ⟨u, hu, hu1, hu2⟩ := irreducible_loop ha.data.wf (dim := dim) a.masks none ha.masks (by simp)
  unfold reduceImpl irreducibleMask
  rw [hu]
  cases u with
  | none =>
    simp only
    refine ⟨_, reduceDim_eq op init ha.data hd, reduceDim_ok op init ha.data n, rfl, fun c => ?_⟩
    have : ∀ c, maskedAlong a.masks dim c = false := by
      intro c; have := hu2 c; simpa [maskedBy] using this.symm
    simp [this]
  | some m =>
    obtain ⟨m1, m2, m3, m4⟩ := hu1 m rfl
    have hne : m.arr.dims ≠ [] := by intro hc; rw [hc] at m4; simp at m4
    simp only [intersection_of_includes ha.data.wf m1.wf ha.data.valid m3, Arr.transpose,
      transpose_common m1.wf m1.valid ha.data.wf m3 hne]
    set f := a.data.dims.filter (fun p => contains m.arr.dims p.1) with hf
    have hfw : WF f := sublist_WF List.filter_sublist ha.data.wf
    have hfi : Dim.invalid ∉ labels f := fun hc => ha.data.valid (labels_mono (fun p hp => List.mem_of_mem_filter hp) _ hc)
    have hfarr : (⟨f, m.arr.val⟩ : Arr Bool).Ok := by
      refine ⟨hfw, hfi, fun c c' hcc => m1.own c c' (fun d hd' => hcc d ?_)⟩
      obtain ⟨x, hx⟩ := at?_ok_of_mem_labels hd'
      have hx := at?_ok_mem hx
      exact mem_labels (x := x) (List.mem_filter.2 ⟨m3 _ hx, contains_iff.2 (mem_labels hx)⟩)
    unfold whereMask
    rw [if_neg (by simp [m2.bool]), if_neg (by simp [m2.unit])]
    obtain ⟨x, hx⟩ := (zip_exists (f := fun (b : Bool) (v : V) => if b then fill else v) hfarr ha.data).2 (by
      intro d x y hx hy
      exact compatible_of_subset ha.data.wf (fun q hq => hq) d x y (List.mem_of_mem_filter hx) hy)
    obtain ⟨x1, x2, x3⟩ := zip_ok hfarr ha.data hx
    have hxd : x.dims = a.data.dims := by
      unfold Arr.zip at hx
      cases hm' : Dims.merge f a.data.dims with
      | error e => rw [hm'] at hx; simp at hx
      | ok mm =>
        rw [hm'] at hx
        injection hx with hx
        rw [← hx]
        have ho := (C02_merge_order f a.data.dims mm hfw ha.data.wf hfi ha.data.valid hm').2 (by
          have e1 : (labels f).filter (· ∈ labels a.data.dims) = labels f :=
            List.filter_eq_self.2 (fun d hd' => by simpa using labels_mono (fun p hp => List.mem_of_mem_filter hp) d hd')
          rw [e1, hf]
          simp only [labels, List.filter_map]
          refine congrArg _ (List.filter_congr (fun p hp => ?_))
          simp only [Function.comp]
          refine Bool.eq_iff_iff.2 ⟨fun h => decide_eq_true (List.mem_map.2 ⟨p, List.mem_filter.2 ⟨hp, h⟩, rfl⟩), fun h => ?_⟩
          obtain ⟨q, hq, he⟩ := List.mem_map.1 (of_decide_eq_true h)
          rw [← he]; exact (List.mem_filter.1 hq).2)
        have hmw := merge_valid hfw ha.data.wf hfi ha.data.valid hm'
        refine (mem_iff_eq_of_sublist hmw.1 ho (fun p hp => ?_)).symm
        rcases (C02_merge_content _ _ _ hfw ha.data.wf hfi ha.data.valid hm' p.1 p.2).1 hp with h | h
        · exact List.mem_of_mem_filter h
        · exact h
    rw [hx]
    simp only
    refine ⟨_, reduceDim_eq op init x1 (by rw [hxd]; exact hd), reduceDim_ok op init x1 n, by simp only [hxd], fun c => ?_⟩
    simp only [x3]
    have : ∀ c, m.arr.val c = maskedAlong a.masks dim c := by
      intro c; have := hu2 c; simpa [maskedBy] using this
    simp only [this]

/-- Skipping instead of replacing, given that the fill value does not change accumulated values. -/
theorem foldl_fill {ι : Type} (op : W → V → W) (fill : V) (P : W → Prop) (hfill : ∀ w, P w → op w fill = w)
    (hop : ∀ w v, P w → P (op w v)) (masked : ι → Bool) (x : ι → V) : ∀ (l : List ι) (init : W), P init →
    l.foldl (fun acc j => op acc (if masked j then fill else x j)) init =
      ((l.filter (fun j => !masked j)).map x).foldl op init
  | [], init, _ => rfl
  | j :: l, init, hi => by
    simp only [List.foldl_cons]
    by_cases hm : masked j = true
    · rw [if_pos hm, hfill _ hi, foldl_fill op fill P hfill hop masked x l init hi]
      simp [hm]
    · rw [if_neg hm, foldl_fill op fill P hfill hop masked x l _ (hop _ _ hi)]
      simp [hm]

theorem maskedArr_next {a : MaskedArr V} (ha : a.Ok) {dim : Dim} {r : Arr W} (hr : r.Ok)
    (hd : r.dims = a.data.dims.filter (fun p => decide (p.1 ≠ dim))) :
    (⟨r, independentMasks a.masks dim⟩ : MaskedArr W).Ok := by
  refine ⟨hr, fun p hp => ?_⟩
  simp only [independentMasks, List.mem_map, List.mem_filter] at hp
  obtain ⟨q, ⟨hq, hc⟩, rfl⟩ := hp
  obtain ⟨h1, h2, h3⟩ := ha.masks q hq
  refine ⟨h1, ⟨h2.bool, h2.unit⟩, fun e he => ?_⟩
  simp only
  rw [hd, List.mem_filter]
  refine ⟨h3 e he, ?_⟩
  simp only [decide_eq_true_eq]
  rintro rfl
  simp only [Bool.not_eq_true'] at hc
  exact contains_false.1 hc (mem_labels (x := e.2) he)

end Scipp
