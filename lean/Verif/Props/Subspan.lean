import Verif.Lemmas.Subspan
import Verif.Lemmas.FlattenEdges
import Verif.Props.View
import Mathlib.Data.List.Sort
/-
C62: operations on rows, `subspan_view`, `as_contiguous`, `sort(var, dim)`, `issorted`, `allsorted`.
-/
namespace Scipp.Props
open Scipp Sizes

/-- Neighbours along `dim` are neighbours in memory. -/
def Adjacent (v : View) (dim : Dim) : Prop := ∀ c i, v.addr (upd c dim (i + 1)) = v.addr (upd c dim i) + 1

theorem split_dim {v : View} (hw : v.WF) {dim : Dim} {n : Int} (hd : (dim, n) ∈ v.dims) :
    ∃ pre post, v.dims = pre ++ (dim, n) :: post ∧ dim ∉ labels pre ∧ dim ∉ labels post ∧ v.dims.filter (·.1 ≠ dim) = pre ++ post := by
  obtain ⟨pre, n', post, he, hp⟩ := split_label (mem_labels hd)
  have hn : (labels v.dims).Nodup := hw.1.1
  have hn' : n' = n := by
    have h1 := at?_of_mem hn (show (dim, n') ∈ v.dims by rw [he]; simp)
    rw [at?_of_mem hn hd] at h1
    simpa using h1.symm
  subst hn'
  have hpost : dim ∉ labels post := by
    rw [he] at hn
    simp only [labels_append, labels_cons, List.nodup_append, List.nodup_cons] at hn
    exact hn.2.1.1
  refine ⟨pre, post, he, hp, hpost, ?_⟩
  have e : ∀ s : Dims, dim ∉ labels s → s.filter (fun q => decide (q.1 ≠ dim)) = s := by
    intro s hs
    rw [List.filter_eq_self]
    intro q hq
    simp only [decide_eq_true_eq]
    exact fun h => hs (h ▸ mem_labels (x := q.2) hq)
  rw [he, List.filter_append, List.filter_cons, e pre hp, e post hpost]
  simp

theorem adjacent_iff {v : View} (hw : v.WF) {dim : Dim} {n : Int} (hd : (dim, n) ∈ v.dims) : Adjacent v dim ↔ strideOf v.dims v.strides dim = 1 := by
  obtain ⟨pre, post, he, _, _, _⟩ := split_dim hw hd
  constructor
  · intro h
    have := h (fun _ => 0) 0
    rw [addr_row hw he, addr_row hw he] at this
    simp only [zero_add, one_mul, zero_mul, add_zero] at this
    omega
  · intro h c i
    rw [addr_row hw he, addr_row hw he, h]
    ring

/-- The spans of a view along `dim` are its rows, one for every position of the other dims; the view is refused if the elements of a row are not next to each other in memory. -/
theorem C62_subspan_view (v : View) (hw : v.WF) (dim : Dim) (n : Int) (hd : (dim, n) ∈ v.dims) :
    (Adjacent v dim → ∃ spans, subspanView v dim = .ok (v.dims.filter (·.1 ≠ dim), spans) ∧
      ∀ (α : Type) (buf : Int → α) c, InDims (v.dims.filter (·.1 ≠ dim)) c → readSpan buf (spans c) = row ⟨v, buf⟩ dim n c) ∧
    (¬ Adjacent v dim → subspanView v dim = .error .dimension) := by
  obtain ⟨pre, post, he, hp, _, hf⟩ := split_dim hw hd
  rw [adjacent_iff hw hd]
  refine ⟨fun h1 => ?_, fun h1 => subspanView_refuses hw (mem_labels hd) h1⟩
  obtain ⟨f, h2, h3⟩ := subspanView_spec hw he h1
  rw [hf]
  exact ⟨f, h2, fun α buf c hc => readSpan_row (h3 c hc).1 (h3 c hc).2⟩

/-- `as_contiguous` gives the same elements, with the rows along `dim` contiguous in memory: a view for which `subspan_view` is never refused. -/
theorem C62_as_contiguous {α : Type} (x : Var α) (hw : x.view.WF) (hi : Dim.invalid ∉ labels x.view.dims) (dim : Dim) (n : Int) (hd : (dim, n) ∈ x.view.dims) :
    ∃ y, asContiguous x dim = .ok y ∧ y.view.WF ∧ Adjacent y.view dim ∧ y.view.dims.Perm x.view.dims ∧ ∀ c, InDims x.view.dims c → y.elem c = x.elem c := by
  obtain ⟨pre, post, he, hp, hpost, _⟩ := split_dim hw hd
  by_cases h1 : strideOf x.view.dims x.view.strides dim = 1
  · refine ⟨x, ?_, hw, (adjacent_iff hw hd).2 h1, List.Perm.refl _, fun _ _ => rfl⟩
    simp only [asContiguous, View.stride_eq hw.2.1 (mem_labels hd), h1, bind, Except.bind, if_true]
  · have her : erase x.view.dims dim = .ok (pre ++ post) := by rw [he]; exact erase_mid hp
    have hat : at? x.view.dims dim = .ok n := at?_of_mem hw.1.1 hd
    have hadd : Dims.addInner (pre ++ post) dim n = .ok (pre ++ post ++ [(dim, n)]) :=
      Flat.addInner_eq (by simp [hp, hpost]) (fun h => hi (h ▸ mem_labels hd)) (hw.1.2 _ hd)
    have hperm : (labels (pre ++ post ++ [(dim, n)])).Perm (labels x.view.dims) := by
      rw [he]
      simp only [labels_append, labels_cons, labels_nil, List.append_assoc]
      exact List.Perm.append_left _ (List.perm_append_comm)
    have heff : effOrder x.view.dims (labels (pre ++ post ++ [(dim, n)])) = labels (pre ++ post ++ [(dim, n)]) := by
      simp [effOrder]
    obtain ⟨v', hv'⟩ := View.transpose_exists (v := x.view) (order := labels (pre ++ post ++ [(dim, n)])) hw hi (by rw [heff]; exact hperm)
    obtain ⟨t1, t2, t3, t4, t5, t6, t7⟩ := View.transpose_ok hw hv'
    have hd' : (dim, n) ∈ v'.dims := t2.mem_iff.2 hd
    have hdims : v'.dims = pre ++ post ++ [(dim, n)] := by
      rw [heff] at t1
      have hnd : (labels (pre ++ post ++ [(dim, n)])).Nodup := hperm.nodup_iff.2 hw.1.1
      have key : ∀ (a b : Dims), labels a = labels b → (∀ p ∈ a, p ∈ b) → (labels b).Nodup → a = b := by
        intro a b hl hm hn
        induction a generalizing b with
        | nil => cases b with
          | nil => rfl
          | cons _ _ => simp at hl
        | cons p a ih => cases b with
          | nil => simp at hl
          | cons q b =>
            simp only [labels_cons, List.cons.injEq] at hl
            simp only [labels_cons, List.nodup_cons] at hn
            have hpq : p = q := by
              rcases List.mem_cons.1 (hm p (by simp)) with h | h
              · exact h
              · exact (hn.1 (hl.1 ▸ mem_labels (x := p.2) h)).elim
            subst hpq
            congr 1
            refine ih b hl.2 (fun r hr => ?_) hn.2
            rcases List.mem_cons.1 (hm r (by simp [hr])) with h | h
            · subst h
              exact (hn.1 (hl.2 ▸ mem_labels (x := r.2) hr)).elim
            · exact h
      refine key _ _ t1 (fun p hpm => ?_) hnd
      have := t2.mem_iff.1 hpm
      rw [he] at this
      simp only [List.mem_append, List.mem_cons, List.not_mem_nil, or_false] at this ⊢
      tauto
    refine ⟨Var.copy ⟨v', x.buf⟩, ?_, fresh_WF t6.1, ?_, t2, fun c hc => ?_⟩
    · simp only [asContiguous, View.stride_eq hw.2.1 (mem_labels hd), h1, bind, Except.bind, if_false, her, hat, hadd, hv']
    · refine (adjacent_iff (v := View.fresh v'.dims) (n := n) (fresh_WF t6.1) hd').2 ?_
      show strideOf (View.fresh v'.dims).dims (View.fresh v'.dims).strides dim = 1
      rw [hdims, fresh_stride (by simp [hp, hpost])]
      rfl
    · rw [C06_copy_elements ⟨v', x.buf⟩ t6 c (fun d m hm => hc d m (t2.mem_iff.1 hm))]
      simp only [Var.elem]
      rw [View.transpose_addr hw hv']

/-- Composition of the two: the spans of the contiguous version are the rows of the original, for every layout of the original. -/
theorem C62_rows {α : Type} (x : Var α) (hw : x.view.WF) (hi : Dim.invalid ∉ labels x.view.dims) (dim : Dim) (n : Int) (hd : (dim, n) ∈ x.view.dims) :
    ∃ y dims spans, asContiguous x dim = .ok y ∧ subspanView y.view dim = .ok (dims, spans) ∧ dims.Perm (x.view.dims.filter (·.1 ≠ dim)) ∧
      ∀ c, InDims (x.view.dims.filter (·.1 ≠ dim)) c → readSpan y.buf (spans c) = row x dim n c := by
  obtain ⟨y, h1, h2, h3, h4, h5⟩ := C62_as_contiguous x hw hi dim n hd
  obtain ⟨spans, h6, h7⟩ := (C62_subspan_view y.view h2 dim n (h4.mem_iff.2 hd)).1 h3
  refine ⟨y, _, spans, h1, h6, h4.filter _, fun c hc => ?_⟩
  rw [h7 α y.buf c (fun d m hm => hc d m ((h4.filter _).mem_iff.1 hm))]
  apply List.map_congr_left
  intro i hi
  apply h5
  intro d m hm
  simp only [List.mem_range] at hi
  by_cases e : d = dim
  · subst e
    have : m = n := by
      have h1 := at?_of_mem hw.1.1 hm
      rw [at?_of_mem hw.1.1 hd] at h1
      simpa using h1.symm
    simp only [upd, if_true]; omega
  · simpa [upd, e] using hc d m (by simp [hm, e])

private theorem coordsOf_row {pre post : Dims} (hw : Sizes.WF (pre ++ post)) {c : Dim → Int} (hc : InDims (pre ++ post) c) :
    ∃ k : Nat, k < (Dims.volume (pre ++ post)).toNat ∧ ∀ d ∈ labels (pre ++ post), coordsOf (pre ++ post) k d = c d := by
  have hb := position_bounds hc
  refine ⟨(position (pre ++ post) c).toNat, by omega, fun d hd => ?_⟩
  rw [Int.toNat_of_nonneg hb.1]
  exact coordsOf_position hw.1 hc d hd

/-- `sort(var, dim)` where all dims inside of `dim` have length one, e.g., `dim` is the inner dim: every row of the result has the elements of that row of the input, in order.
`x` may have any layout. Missing for the full claim: any other `dim`, see `C62_sort_refused`. -/
theorem C62_sort_partial {α : Type} (sorter : (α → α → Bool) → List α → List α) (hs : SortsOk sorter) (less : α → α → Bool) (hl : StrictWeak less)
    (x : Var α) (hw : x.view.WF) (pre post : Dims) (dim : Dim) (n : Int) (he : x.view.dims = pre ++ (dim, n) :: post) (hv : Dims.volume post = 1) (order : Bins.SortOrder) :
    ∃ y, sortDim sorter less x dim order = .ok y ∧ y.view.dims = x.view.dims ∧ ∀ c, InDims (pre ++ post) c →
      (row y dim n c).Perm (row x dim n c) ∧
      (row y dim n c).Pairwise (fun a b => match order with | .ascending => less b a = false | .descending => less a b = false) := by
  have hd : (dim, n) ∈ x.view.dims := by rw [he]; simp
  have hn := hw.1.1
  have hp : dim ∉ labels pre ∧ dim ∉ labels post := by
    rw [he] at hn
    simp only [labels_append, labels_cons, List.nodup_append, List.nodup_cons, List.mem_cons] at hn
    exact ⟨fun h => hn.2.2 dim h dim (.inl rfl) rfl, hn.2.1.1⟩
  have hwf : Sizes.WF (pre ++ post) := by
    refine sublist_WF ?_ hw.1
    rw [he]
    exact List.Sublist.append_left (List.sublist_cons_self _ _) _
  have hfw := fresh_WF hw.1
  have hstride : strideOf (View.fresh x.view.dims).dims (View.fresh x.view.dims).strides dim = 1 := by rw [he, fresh_stride hp.1, hv]
  obtain ⟨spans, h1, h2⟩ := subspanView_spec hfw (show (View.fresh x.view.dims).dims = pre ++ (dim, n) :: post from he) hstride
  have hsw : StrictWeak (spanLess less order) := by
    cases order with
    | ascending => exact hl
    | descending =>
      exact ⟨hl.1, fun a b c h1 h2 => hl.2.1 c b a h2 h1, fun a b c h1 h2 h3 h4 => ⟨(hl.2.2 a b c h2 h1 h4 h3).2, (hl.2.2 a b c h2 h1 h4 h3).1⟩⟩
  have hin : ∀ k : Nat, k < (Dims.volume (pre ++ post)).toNat → InDims (pre ++ post) (coordsOf (pre ++ post) k) := fun k hk =>
    coordsOf_inDims hwf (by omega) (by omega)
  have hinu : ∀ c, InDims (pre ++ post) c → ∀ i, 0 ≤ i → i < n → InDims x.view.dims (upd c dim i) := by
    intro c hc i h0 h1 d m hm
    rw [he] at hm
    simp only [List.mem_append, List.mem_cons, Prod.mk.injEq] at hm
    by_cases e : d = dim
    · subst e
      rcases hm with h | h | h
      · exact (hp.1 (mem_labels h)).elim
      · simp only [upd, if_true]; omega
      · exact (hp.2 (mem_labels h)).elim
    · simp only [upd, e, if_false]
      refine hc d m ?_
      simp only [List.mem_append]
      tauto
  obtain ⟨-, hfold⟩ := foldl_spans (fun k : Nat => spans (coordsOf (pre ++ post) k)) (sorter (spanLess less order)) (fun l => (hs _ l hsw).1.length_eq)
    (List.range (Dims.volume (pre ++ post)).toNat) x.copy.buf List.nodup_range (by
      intro k hk k' hk' hne a ⟨a1, a2, a3, a4⟩
      simp only [List.mem_range] at hk hk'
      obtain ⟨b1, b2⟩ := h2 _ (hin k hk)
      obtain ⟨c1, c2⟩ := h2 _ (hin k' hk')
      have hdist := fresh_distinct hn (upd (coordsOf (pre ++ post) k) dim (a - (spans (coordsOf (pre ++ post) k)).1))
        (upd (coordsOf (pre ++ post) k') dim (a - (spans (coordsOf (pre ++ post) k')).1))
        (hinu _ (hin k hk) _ (by omega) (by omega)) (hinu _ (hin k' hk') _ (by omega) (by omega)) (by rw [b2, c2]; omega)
      have : position (pre ++ post) (coordsOf (pre ++ post) k) = position (pre ++ post) (coordsOf (pre ++ post) k') := by
        apply position_congr
        intro d hdl
        have hne' : d ≠ dim := fun e => by subst e; simp [hp] at hdl
        have := hdist d (by show d ∈ labels x.view.dims; rw [he]; simp at hdl ⊢; tauto)
        simpa [upd, hne'] using this
      rw [position_coordsOf hwf (by omega) (by omega), position_coordsOf hwf (by omega) (by omega)] at this
      omega)
  refine ⟨⟨View.fresh x.view.dims, (List.range (Dims.volume (pre ++ post)).toNat).foldl
      (fun buf (k : Nat) => writeSpan buf (spans (coordsOf (pre ++ post) k)) (sorter (spanLess less order) (readSpan buf (spans (coordsOf (pre ++ post) k))))) x.copy.buf⟩,
    ?_, rfl, fun c hc => ?_⟩
  · simp only [sortDim, Var.copy, h1, bind, Except.bind]
  · obtain ⟨k, hk, hkc⟩ := coordsOf_row hwf hc
    have hrow : ∀ buf : Int → α, row ⟨View.fresh x.view.dims, buf⟩ dim n c = readSpan buf (spans (coordsOf (pre ++ post) k)) := by
      intro buf
      rw [readSpan_row (v := View.fresh x.view.dims) (c := coordsOf (pre ++ post) k) (h2 _ (hin k hk)).1 (h2 _ (hin k hk)).2]
      apply List.map_congr_left
      intro i _
      simp only [Var.elem]
      congr 1
      rw [View.addr, View.addr]
      congr 1
      apply addrAux_congr
      intro d hdl
      by_cases e : d = dim
      · simp [upd, e]
      · simp only [upd, e, if_false]
        refine (hkc d ?_).symm
        rw [show (View.fresh x.view.dims).dims = x.view.dims from rfl, he] at hdl
        simp at hdl ⊢; tauto
    have hcopy : row x dim n c = readSpan x.copy.buf (spans (coordsOf (pre ++ post) k)) := by
      rw [← hrow]
      apply List.map_congr_left
      intro i hi
      simp only [List.mem_range] at hi
      exact (C06_copy_elements x hw _ (hinu c hc i (by omega) (by omega))).symm
    rw [hrow, hcopy, hfold k (by simpa using hk)]
    obtain ⟨s1, s2⟩ := hs (spanLess less order) (readSpan x.copy.buf (spans (coordsOf (pre ++ post) k))) hsw
    refine ⟨s1, ?_⟩
    cases order <;> exact s2

/-- `sort(var, dim)` with a `dim` that has dims of total length other than one inside of it raises an error instead of sorting, whatever the layout of the input:
the elements along `dim` of the copy made first are not contiguous. -/
theorem C62_sort_refused {α : Type} (sorter : (α → α → Bool) → List α → List α) (less : α → α → Bool) (x : Var α) (hw : x.view.WF) (pre post : Dims) (dim : Dim) (n : Int)
    (he : x.view.dims = pre ++ (dim, n) :: post) (hv : Dims.volume post ≠ 1) (order : Bins.SortOrder) :
    sortDim sorter less x dim order = .error .dimension := by
  have hn := hw.1.1
  have hp : dim ∉ labels pre := by
    rw [he] at hn
    simp only [labels_append, labels_cons, List.nodup_append, List.nodup_cons, List.mem_cons] at hn
    exact fun h => hn.2.2 dim h dim (.inl rfl) rfl
  have := subspanView_refuses (v := View.fresh x.view.dims) (fresh_WF hw.1) (dim := dim) (by show dim ∈ labels x.view.dims; rw [he]; simp)
    (by rw [he, fresh_stride hp]; exact hv)
  simp only [sortDim, Var.copy, this, bind, Except.bind]

private theorem foldl_and (f : Nat → Bool) (n : Nat) : ∀ b, (List.range n).foldl (fun out i => out && f i) b = true ↔ b = true ∧ ∀ i, i < n → f i = true := by
  induction n with
  | zero => simp
  | succ n ih =>
    intro b
    rw [List.range_succ, List.foldl_append, List.foldl_cons, List.foldl_nil, Bool.and_eq_true, ih b]
    constructor
    · rintro ⟨⟨h1, h2⟩, h3⟩
      refine ⟨h1, fun i hi => ?_⟩
      rcases Nat.lt_succ_iff_lt_or_eq.1 hi with h | h
      · exact h2 i h
      · exact h ▸ h3
    · rintro ⟨h1, h2⟩
      exact ⟨⟨h1, fun i hi => h2 i (by omega)⟩, h2 n (by omega)⟩

/-- `issorted(x, dim)` is true exactly at the positions of the other dims where no element of the row is followed by a smaller (for descending order: greater) one. -/
theorem C62_issorted {α : Type} (le ge : α → α → Bool) (x : Var α) (hw : x.view.WF) (dim : Dim) (n : Int) (hd : (dim, n) ∈ x.view.dims)
    (order : Bins.SortOrder) :
    ∃ f, issorted le ge x dim order = .ok (x.view.dims.filter (·.1 ≠ dim), f) ∧
      ∀ c, f c = true ↔ ∀ i, 0 ≤ i → i + 1 < n →
        match order with
        | .ascending => le (x.elem (upd c dim i)) (x.elem (upd c dim (i + 1))) = true
        | .descending => ge (x.elem (upd c dim i)) (x.elem (upd c dim (i + 1))) = true := by
  obtain ⟨pre, post, he, hp, hpost, hf⟩ := split_dim hw hd
  have her : erase x.view.dims dim = .ok (pre ++ post) := by rw [he]; exact erase_mid hp
  have hat : at? x.view.dims dim = .ok n := at?_of_mem hw.1.1 hd
  rw [hf]
  by_cases hsz : n < 2
  · refine ⟨fun _ => true, by simp only [issorted, her, hat, bind, Except.bind, hsz, if_true], fun c => ?_⟩
    simp only [true_iff]
    intro i h0 h1
    omega
  · have c1 : Slice.Constructed ⟨dim, 0, n - 1, 1⟩ := .inl (by simp only [Slice.range]; rw [if_neg (by omega), if_neg (by omega), if_neg (by omega), if_neg (by omega)])
    have c2 : Slice.Constructed ⟨dim, 1, n, 1⟩ := .inl (by simp only [Slice.range]; rw [if_neg (by omega), if_neg (by omega), if_neg (by omega), if_neg (by omega)])
    obtain ⟨l, hl⟩ := (C04_slice_accepts_iff x.view ⟨dim, 0, n - 1, 1⟩ hw c1).1.2 ⟨n, hd, by rw [if_neg (by simp only; omega)]; simp only; omega⟩
    obtain ⟨r, hr⟩ := (C04_slice_accepts_iff x.view ⟨dim, 1, n, 1⟩ hw c2).1.2 ⟨n, hd, by rw [if_neg (by simp only; omega)]⟩
    have hla := (C04_range_slice x.view l dim 0 (n - 1) 1 hw c1 (by omega) hl).2.2.2.1
    have hra := (C04_range_slice x.view r dim 1 n 1 hw c2 (by omega) hr).2.2.2.1
    refine ⟨fun c => (List.range (n - 1).toNat).foldl
      (fun (out : Bool) (i : Nat) => out && sortedOp le ge order (x.buf (l.addr fun e => if e = dim then i else c e)) (x.buf (r.addr fun e => if e = dim then i else c e))) true,
      by simp only [issorted, her, hat, bind, Except.bind, hsz, if_false, hl, hr], fun c => ?_⟩
    simp only [foldl_and, true_and, hla, hra]
    have e : ∀ (i : Int) k, upd (fun e => if e = dim then i else c e) dim k = upd c dim k := fun i k => by
      funext e; by_cases h : e = dim <;> simp [upd, h]
    simp only [if_true, e, Var.elem]
    constructor
    · intro h i h0 h1
      have := h i.toNat (by omega)
      rw [Int.toNat_of_nonneg h0] at this
      cases order <;> simpa [add_comm, sortedOp] using this
    · intro h i hi
      have := h i (by omega) (by omega)
      cases order <;> simpa [add_comm, sortedOp] using this

/-- `allsorted(x, dim)` is true exactly if every row is sorted. -/
theorem C62_allsorted {α : Type} (le ge : α → α → Bool) (x : Var α) (hw : x.view.WF) (dim : Dim) (n : Int) (hd : (dim, n) ∈ x.view.dims)
    (order : Bins.SortOrder) :
    ∃ b, allsorted le ge x dim order = .ok b ∧ (b = true ↔ ∀ c, InDims (x.view.dims.filter (·.1 ≠ dim)) c → ∀ i, 0 ≤ i → i + 1 < n →
        match order with
        | .ascending => le (x.elem (upd c dim i)) (x.elem (upd c dim (i + 1))) = true
        | .descending => ge (x.elem (upd c dim i)) (x.elem (upd c dim (i + 1))) = true) := by
  obtain ⟨f, h1, h2⟩ := C62_issorted le ge x hw dim n hd order
  obtain ⟨pre, post, he, hp, hpost, hf⟩ := split_dim hw hd
  have hwf : Sizes.WF (pre ++ post) := by
    refine sublist_WF ?_ hw.1
    rw [he]
    exact List.Sublist.append_left (List.sublist_cons_self _ _) _
  refine ⟨_, by simp only [allsorted, h1, bind, Except.bind]; rfl, ?_⟩
  rw [hf]
  simp only [List.all_eq_true, List.mem_range]
  constructor
  · intro h c hc
    obtain ⟨k, hk, hkc⟩ := coordsOf_row hwf hc
    have := (h2 _).1 (h k hk)
    intro i h0 h1
    have e : ∀ j, x.elem (upd (coordsOf (pre ++ post) k) dim j) = x.elem (upd c dim j) := by
      intro j
      simp only [Var.elem, View.addr]
      congr 2
      apply addrAux_congr
      intro d hdl
      by_cases e : d = dim
      · simp [upd, e]
      · simp only [upd, e, if_false]
        refine hkc d ?_
        rw [he] at hdl
        simp at hdl ⊢; tauto
    have := this i h0 h1
    rw [e, e] at this
    exact this
  · intro h k hk
    exact (h2 _).2 (h _ (coordsOf_inDims hwf (by omega) (by omega)))

/-- What `sort` returns is sorted in the sense of `allsorted`, in the same order; `<=` and `>=` are the negations of `>` and `<`. -/
theorem C62_sorted_after_sort {α : Type} (sorter : (α → α → Bool) → List α → List α) (hs : SortsOk sorter) (less : α → α → Bool) (hl : StrictWeak less)
    (x : Var α) (hw : x.view.WF) (pre post : Dims) (dim : Dim) (n : Int) (he : x.view.dims = pre ++ (dim, n) :: post) (hv : Dims.volume post = 1) (order : Bins.SortOrder) :
    ∃ y, sortDim sorter less x dim order = .ok y ∧ allsorted (fun a b => !less b a) (fun a b => !less a b) y dim order = .ok true := by
  obtain ⟨y, h1, h2, h3⟩ := C62_sort_partial sorter hs less hl x hw pre post dim n he hv order
  have hyw : y.view.WF := by
    simp only [sortDim, bind, Except.bind] at h1
    split at h1
    · cases h1
    · simp only [Except.ok.injEq] at h1
      rw [← h1]
      exact fresh_WF hw.1
  have hd : (dim, n) ∈ y.view.dims := by rw [h2, he]; simp
  obtain ⟨b, h4, h5⟩ := C62_allsorted (fun a b => !less b a) (fun a b => !less a b) y hyw dim n hd order
  refine ⟨y, h1, ?_⟩
  rw [h4]
  congr 1
  rw [h5]
  obtain ⟨pre', post', he', _, _, hf⟩ := split_dim hyw hd
  obtain ⟨e1, _, e2⟩ : pre' = pre ∧ (dim, n) = (dim, n) ∧ post' = post := by
    obtain ⟨pre'', post'', he'', hp'', _, _⟩ := split_dim hw (show (dim, n) ∈ x.view.dims by rw [he]; simp)
    have hu : ∀ (a b a' b' : Dims), a ++ (dim, n) :: b = a' ++ (dim, n) :: b' → dim ∉ labels a → dim ∉ labels a' → a = a' ∧ b = b' := by
      intro a
      induction a with
      | nil =>
        intro b a' b' h _ h'
        cases a' with
        | nil => simpa using h
        | cons q a' => simp only [List.nil_append, List.cons_append, List.cons.injEq] at h; rw [← h.1] at h'; simp at h'
      | cons p a ih =>
        intro b a' b' h hp hp'
        cases a' with
        | nil => simp only [List.nil_append, List.cons_append, List.cons.injEq] at h; rw [h.1] at hp; simp at hp
        | cons q a' =>
          simp only [List.cons_append, List.cons.injEq] at h
          simp only [labels_cons, List.mem_cons, not_or] at hp hp'
          obtain ⟨r1, r2⟩ := ih b a' b' h.2 hp.2 hp'.2
          exact ⟨by rw [h.1, r1], r2⟩
    have hnd : ∀ (a b : Dims), (labels (a ++ (dim, n) :: b)).Nodup → dim ∉ labels a := by
      intro a b h
      simp only [labels_append, labels_cons, List.nodup_append, List.nodup_cons, List.mem_cons] at h
      exact fun h' => h.2.2 dim h' dim (.inl rfl) rfl
    have := hu pre' post' pre post (by rw [← he', h2, he]) (hnd _ _ (he' ▸ hyw.1.1)) (hnd _ _ (he ▸ hw.1.1))
    exact ⟨this.1, rfl, this.2⟩
  rw [hf, e1, e2]
  intro c hc i h0 hi
  have hpw := (h3 c hc).2
  have hrow : ∀ (j : Nat) (hj : j < (row y dim n c).length), (row y dim n c)[j] = y.elem (upd c dim j) := by
    intro j hj
    simp [row]
  have hlen : (row y dim n c).length = n.toNat := by simp [row]
  have := List.pairwise_iff_getElem.1 hpw i.toNat (i.toNat + 1) (by omega) (by omega) (by omega)
  rw [hrow, hrow] at this
  push_cast at this
  rw [Int.toNat_of_nonneg h0] at this
  cases order <;> simpa using this

/-- `<` of floating point numbers, `none` is NaN. -/
def floatLess (a b : Option Int) : Bool :=
  match a, b with
  | some x, some y => decide (x < y)
  | _, _ => false

/-- With NaN `<`, as used by `sort(var, dim)`, is not an ordering `std::sort` may be called with (in contrast to `nan_sensitive_less` used for sorting by a key, C41): NaN is equivalent to every number. -/
theorem C62_wrong_nan : ¬ StrictWeak floatLess := fun h => by
  have := (h.2.2 (some 1) none (some 2) rfl rfl rfl rfl).1
  simp [floatLess] at this

/-! Concrete cases: a 2-D variable stored in transposed order. -/

/-- Insertion sort, an algorithm with the guarantees of `std::sort`. -/
private def isort {α : Type} : (α → α → Bool) → List α → List α := fun lt l => l.insertionSort (fun a b => lt b a = false)

private theorem isort_ok {α : Type} : SortsOk (isort (α := α)) := by
  intro lt l ⟨h1, h2, h3⟩
  have asymm : ∀ a b, lt a b = true → lt b a = false := fun a b hab => by
    cases hba : lt b a with
    | false => rfl
    | true => rw [← h1 a, ← h2 a b a hab hba]
  have htrans : IsTrans α (fun a b => lt b a = false) := ⟨fun a b c hab hbc => by
    cases hca : lt c a with
    | false => rfl
    | true =>
      cases hab' : lt a b with
      | true => rw [h2 c a b hca hab'] at hbc; cases hbc
      | false =>
        cases hbc' : lt b c with
        | true => rw [h2 b c a hbc' hca] at hab; cases hab
        | false => rw [(h3 a b c hab' hab hbc' hbc).2] at hca; cases hca⟩
  have htotal : Std.Total (fun a b : α => lt b a = false) := ⟨fun a b => by
    cases hab : lt a b with
    | false => exact .inr rfl
    | true => exact .inl (asymm a b hab)⟩
  exact ⟨List.perm_insertionSort _ _, List.pairwise_insertionSort _ _⟩

private theorem intLess_ok : StrictWeak (fun a b : Int => decide (a < b)) :=
  ⟨fun a => by simp, fun a b c h1 h2 => by simp at *; omega, fun a b c h1 h2 h3 h4 => by simp at *; omega⟩

/-- dims (4: 2, 5: 3), elements `[[7, 3, 5], [1, 9, 2]]`, stored by columns. -/
private def cols : Var Int := ⟨⟨[(4, 2), (5, 3)], [1, 2], 0, false⟩, fun a => [7, 1, 3, 9, 5, 2].getD a.toNat 0⟩
private theorem cols_wf : cols.view.WF := by simp [cols, View.WF, Sizes.WF]

example : subspanView cols.view 5 = .error .dimension :=
  (C62_subspan_view cols.view cols_wf 5 3 (by simp [cols])).2 (fun h => by have := h (fun _ => 0) 0; revert this; decide)
example : ∃ spans, subspanView cols.view 4 = .ok ([(5, 3)], spans) ∧ ∀ (α : Type) (buf : Int → α) c, InDims [(5, 3)] c → readSpan buf (spans c) = row ⟨cols.view, buf⟩ 4 2 c :=
  (C62_subspan_view cols.view cols_wf 4 2 (by simp [cols])).1 (fun c i => by simp [cols, View.addr, upd]; ring)
example : (asContiguous cols 5).toOption.map (fun y => ((List.range 6).map fun (k : Nat) => y.buf k, y.view.strides)) = some ([7, 3, 5, 1, 9, 2], [3, 1]) := by decide
example := C62_as_contiguous cols cols_wf (by simp [cols, Dim.invalid]) 5 3 (by simp [cols])
example := C62_rows cols cols_wf (by simp [cols, Dim.invalid]) 5 3 (by simp [cols])
example : (sortDim isort (fun a b : Int => decide (a < b)) cols 5 .descending).toOption.map (fun y => (List.range 6).map fun (k : Nat) => y.buf k) = some [7, 5, 3, 9, 2, 1] := by
  decide
example := C62_sort_partial isort isort_ok _ intLess_ok cols cols_wf [(4, 2)] [] 5 3 rfl rfl .descending
example := C62_sorted_after_sort isort isort_ok _ intLess_ok cols cols_wf [(4, 2)] [] 5 3 rfl rfl .descending
example : sortDim isort (fun a b : Int => decide (a < b)) cols 4 .ascending = .error .dimension :=
  C62_sort_refused isort _ cols cols_wf [] [(5, 3)] 4 2 rfl (by decide) .ascending
example : (issorted (fun a b : Int => decide (a ≤ b)) (fun a b => decide (a ≥ b)) cols 4 .ascending).toOption.map (fun r => (r.1, [0, 1, 2].map fun i => r.2 fun _ => i)) =
    some ([(5, 3)], [false, true, false]) := by decide
example := C62_issorted (fun a b : Int => decide (a ≤ b)) (fun a b => decide (a ≥ b)) cols cols_wf 4 2 (by simp [cols]) .ascending
example := C62_allsorted (fun a b : Int => decide (a ≤ b)) (fun a b => decide (a ≥ b)) cols cols_wf 5 3 (by simp [cols]) .descending
example : allsorted (fun a b : Int => decide (a ≤ b)) (fun a b => decide (a ≥ b)) cols 5 .descending = .ok false := by decide

end Scipp.Props
