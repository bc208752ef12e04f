import Verif.Model.Subspan
import Verif.Spec.Subspan
import Verif.Lemmas.View2
import Verif.Lemmas.Flatten
import Verif.Props.Cumulative
/-
Lemmas about rows and spans.
-/
namespace Scipp
open Sizes

theorem View.stride_eq {v : View} (hl : v.strides.length = v.dims.length) {d : Dim} (h : d ∈ labels v.dims) :
    v.stride d = .ok (strideOf v.dims v.strides d) := by
  obtain ⟨i, h1, h2⟩ := strideOf_index hl h
  simp only [View.stride, h1, h2, bind, Except.bind]

theorem spanRange_eq (n s : Int) (j : Int) (h0 : 0 ≤ j) (h1 : j < n) : spanRange n s j.toNat = j * s := by
  have := (Props.C29_cumsum 1 n.toNat 1 (fun _ => s) 0 j.toNat 0 (by omega) (by omega) (by omega)).2
  simp only [Nat.zero_mul, Nat.zero_add, Nat.mul_one, Nat.add_zero] at this
  rw [spanRange, this]
  simp [List.map_const', List.sum_replicate, h0]

theorem spanStart_spec {v : View} (hl : v.strides.length = v.dims.length) (dims : Dims) (hs : ∀ d ∈ labels dims, d ∈ labels v.dims) :
    ∃ f, spanStart v dims = .ok f ∧ ∀ c, InDims dims c → f c = addrAux dims ((labels dims).map (strideOf v.dims v.strides)) c := by
  suffices H : ∀ (dims : Dims) (f0 : (Dim → Int) → Int), (∀ d ∈ labels dims, d ∈ labels v.dims) →
      ∃ f, dims.foldlM (fun start p => do
        let s ← v.stride p.1
        .ok (fun c => start c + spanRange p.2 s (c p.1).toNat)) f0 = (.ok f : Except Err _) ∧
      ∀ c, InDims dims c → f c = f0 c + addrAux dims ((labels dims).map (strideOf v.dims v.strides)) c by
    obtain ⟨f, h1, h2⟩ := H dims (fun _ => 0) hs
    exact ⟨f, h1, fun c hc => by rw [h2 c hc]; simp⟩
  intro dims
  induction dims with
  | nil => intro f0 _; exact ⟨f0, rfl, fun c _ => by simp⟩
  | cons p dims ih =>
    intro f0 hs
    obtain ⟨f, h1, h2⟩ := ih (fun c => f0 c + spanRange p.2 (strideOf v.dims v.strides p.1) (c p.1).toNat) (fun d hd => hs d (by simp [hd]))
    refine ⟨f, ?_, fun c hc => ?_⟩
    · simp only [List.foldlM_cons, View.stride_eq hl (hs p.1 (by simp)), bind, Except.bind] at h1 ⊢
      exact h1
    · rw [h2 c hc.tail]
      have := hc p.1 p.2 (by simp)
      simp only [labels_cons, List.map_cons, addrAux_cons, spanRange_eq _ _ _ this.1 this.2]
      ring

theorem strideOf_at {pre post : Dims} {spre spost : List Int} {d : Dim} {n x : Int} (h : d ∉ labels pre) (hl : spre.length = pre.length) :
    strideOf (pre ++ (d, n) :: post) (spre ++ x :: spost) d = x := by
  induction pre generalizing spre with
  | nil => cases spre with
    | nil => simp [strideOf]
    | cons _ _ => simp at hl
  | cons p pre ih => cases spre with
    | nil => simp at hl
    | cons y spre =>
      simp only [labels_cons, List.mem_cons, not_or] at h
      simp only [List.cons_append, strideOf, Ne.symm h.1, if_false]
      exact ih h.2 (by simpa using hl)

/-- Address of an element of a row. -/
theorem addr_row {v : View} (hw : v.WF) {pre post : Dims} {dim : Dim} {n : Int} (he : v.dims = pre ++ (dim, n) :: post) (c : Dim → Int) (i : Int) :
    v.addr (upd c dim i) = v.offset + addrAux (pre ++ post) ((labels (pre ++ post)).map (strideOf v.dims v.strides)) c + i * strideOf v.dims v.strides dim := by
  have hn : (labels v.dims).Nodup := hw.1.1
  have h1 := addrAux_broadcast (s := v.dims) (t := v.dims) (st := v.strides) (upd c dim i) hw.2.1 hn hn (fun _ h => h)
  rw [View.addr, ← h1, he]
  rw [he] at hn
  simp only [labels_append, labels_cons, List.map_append, List.map_cons]
  have hd : dim ∉ labels pre ∧ dim ∉ labels post := by
    simp only [labels_append, labels_cons, List.nodup_append, List.nodup_cons, List.mem_cons] at hn
    exact ⟨fun h => hn.2.2 dim h dim (.inl rfl) rfl, hn.2.1.1⟩
  rw [addrAux_mid (by simp), addrAux_append (by simp), addrAux_upd hd.1, addrAux_upd hd.2]
  simp only [upd, if_true]
  ring

theorem subspanView_spec {v : View} (hw : v.WF) {pre post : Dims} {dim : Dim} {n : Int} (he : v.dims = pre ++ (dim, n) :: post)
    (h1 : strideOf v.dims v.strides dim = 1) :
    ∃ f, subspanView v dim = .ok (pre ++ post, f) ∧ ∀ c, InDims (pre ++ post) c → (f c).2 = (f c).1 + n ∧ ∀ i, v.addr (upd c dim i) = (f c).1 + i := by
  have hn : (labels v.dims).Nodup := hw.1.1
  have hd : dim ∉ labels pre := by
    rw [he] at hn
    simp only [labels_append, labels_cons, List.nodup_append, List.nodup_cons, List.mem_cons] at hn
    exact fun h => hn.2.2 dim h dim (.inl rfl) rfl
  obtain ⟨f, hf, hfc⟩ := spanStart_spec hw.2.1 (pre ++ post) (fun d hd => by rw [he]; simp at hd ⊢; tauto)
  have hat : at? v.dims dim = .ok n := at?_of_mem hn (by rw [he]; simp)
  have her : erase v.dims dim = .ok (pre ++ post) := by rw [he]; exact erase_mid hd
  refine ⟨fun c => (v.offset + 1 * f c, v.offset + 1 * (f c + n)), ?_, fun c hc => ?_⟩
  · simp only [subspanView, makeIndices, her, hf, hat, bind, Except.bind, View.stride_eq hw.2.1 (show dim ∈ labels v.dims by rw [he]; simp), h1]
    simp only [ne_eq, not_true_eq_false, if_false]
  · simp only [one_mul, hfc c hc]
    refine ⟨by omega, fun i => ?_⟩
    rw [addr_row hw he, h1]
    omega

theorem subspanView_refuses {v : View} (hw : v.WF) {dim : Dim} (hd : dim ∈ labels v.dims) (h1 : strideOf v.dims v.strides dim ≠ 1) :
    subspanView v dim = .error .dimension := by
  obtain ⟨pre, n, post, he, hp⟩ := split_label hd
  obtain ⟨f, hf, hfc⟩ := spanStart_spec hw.2.1 (pre ++ post) (fun d hd => by rw [he]; simp at hd ⊢; tauto)
  have hat : at? v.dims dim = .ok n := at?_of_mem hw.1.1 (by rw [he]; simp)
  have her : erase v.dims dim = .ok (pre ++ post) := by rw [he]; exact erase_mid hp
  simp only [subspanView, makeIndices, her, hf, hat, bind, Except.bind, View.stride_eq hw.2.1 hd]
  simp only [ne_eq, h1, not_false_eq_true, if_true]

theorem readSpan_row {α : Type} {v : View} {buf : Int → α} {dim : Dim} {n : Int} {c : Dim → Int} {s : Int × Int} (h2 : s.2 = s.1 + n)
    (ha : ∀ i, v.addr (upd c dim i) = s.1 + i) : readSpan buf s = row ⟨v, buf⟩ dim n c := by
  simp only [readSpan, row, h2, Var.elem, ha, add_sub_cancel_left]

theorem readSpan_length {α : Type} (buf : Int → α) (s : Int × Int) : (readSpan buf s).length = (s.2 - s.1).toNat := by simp [readSpan]

theorem readSpan_writeSpan_same {α : Type} (buf : Int → α) (s : Int × Int) (vals : List α) (h : vals.length = (s.2 - s.1).toNat) :
    readSpan (writeSpan buf s vals) s = vals := by
  apply List.ext_getElem
  · simp [readSpan, h]
  · intro i h1 h2
    simp only [readSpan, writeSpan, List.getElem_map, List.getElem_range]
    rw [if_pos (by omega)]
    have : (s.1 + (i : Int) - s.1).toNat = i := by omega
    rw [this, List.getD_eq_getElem?_getD, List.getElem?_eq_getElem h2]
    rfl

theorem readSpan_writeSpan_other {α : Type} (buf : Int → α) (s t : Int × Int) (vals : List α) (h : ∀ a, ¬ (s.1 ≤ a ∧ a < s.2 ∧ t.1 ≤ a ∧ a < t.2)) :
    readSpan (writeSpan buf s vals) t = readSpan buf t := by
  apply List.map_congr_left
  intro i hi
  simp only [List.mem_range] at hi
  simp only [writeSpan]
  rw [if_neg]
  intro h'
  exact h (t.1 + i) ⟨h'.1, h'.2, by omega, by omega⟩

/-- Rewriting a list of disjoint spans one after the other. -/
theorem foldl_spans {α : Type} (S : Nat → Int × Int) (g : List α → List α) (hg : ∀ l, (g l).length = l.length) :
    ∀ (l : List Nat) (buf : Int → α), l.Nodup → (∀ k ∈ l, ∀ k' ∈ l, k ≠ k' → ∀ a, ¬ ((S k).1 ≤ a ∧ a < (S k).2 ∧ (S k').1 ≤ a ∧ a < (S k').2)) →
    (∀ t, (∀ k ∈ l, ∀ a, ¬ ((S k).1 ≤ a ∧ a < (S k).2 ∧ t.1 ≤ a ∧ a < t.2)) →
      readSpan (l.foldl (fun buf k => writeSpan buf (S k) (g (readSpan buf (S k)))) buf) t = readSpan buf t) ∧
    ∀ k ∈ l, readSpan (l.foldl (fun buf k => writeSpan buf (S k) (g (readSpan buf (S k)))) buf) (S k) = g (readSpan buf (S k)) := by
  intro l
  induction l with
  | nil => intro buf _ _; simp
  | cons k0 l ih =>
    intro buf hn hd
    simp only [List.nodup_cons] at hn
    obtain ⟨i1, i2⟩ := ih (writeSpan buf (S k0) (g (readSpan buf (S k0)))) hn.2 (fun k hk k' hk' => hd k (by simp [hk]) k' (by simp [hk']))
    refine ⟨fun t ht => ?_, fun k hk => ?_⟩
    · rw [List.foldl_cons, i1 t (fun k hk => ht k (by simp [hk])), readSpan_writeSpan_other _ _ _ _ (ht k0 (by simp))]
    · rw [List.foldl_cons]
      rcases List.mem_cons.1 hk with rfl | hk
      · rw [i1 _ (fun k' hk' => hd k' (by simp [hk']) k (by simp) (fun h => hn.1 (h ▸ hk')))]
        exact readSpan_writeSpan_same _ _ _ (by rw [hg, readSpan_length])
      · rw [i2 k hk, readSpan_writeSpan_other]
        exact hd k0 (by simp) k (by simp [hk]) (fun h => hn.1 (h ▸ hk))

theorem fresh_stride {pre post : Dims} {dim : Dim} {n : Int} (h : dim ∉ labels pre) :
    strideOf (View.fresh (pre ++ (dim, n) :: post)).dims (View.fresh (pre ++ (dim, n) :: post)).strides dim = Dims.volume post := by
  simp only [View.fresh]
  rw [rowMajor_append, shape_cons, rowMajor_shape_cons (dim, n) post]
  exact strideOf_at h (by simp)

end Scipp
