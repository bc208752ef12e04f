import Verif.Lemmas.RebinVar
import Verif.Props.Masks
/-
Rebinning data with several dims, for every memory layout, and with masks (C84).
-/
namespace Scipp.Props
open Scipp Sizes Rebin
variable {K : Type} [Field K] [LinearOrder K] [IsStrictOrderedRing K]

private theorem Rebinnable.perm {v : Data K} {dim : Dim} {n m : Int} {old new : Edges K} (h : Rebinnable v dim n m old new) {x : Var (Option K × Option K)} (hw : x.view.WF)
    (hp : x.view.dims.Perm v.x.view.dims) : Rebinnable { v with x := x } dim n m old new :=
  ⟨hw, fun hc => h.valid ((hp.map _).mem_iff.1 hc), hp.mem_iff.2 h.along, h.some_bins, h.dense,
    ⟨h.old_fits.wf, h.old_fits.along, fun p hp' hne => hp.mem_iff.2 (h.old_fits.others p hp' hne)⟩,
    ⟨h.new_fits.wf, h.new_fits.along, fun p hp' hne => hp.mem_iff.2 (h.new_fits.others p hp' hne)⟩,
    h.nonneg, h.unit, h.plain, h.types, h.monotonic⟩

private theorem resized_wf {v : Data K} {dim : Dim} {n m : Int} {old new : Edges K} (h : Rebinnable v dim n m old new) : Sizes.WF (resized v.x.view.dims dim m) := by
  refine ⟨by rw [labels_resized]; exact h.wf.1.1, fun p hp => ?_⟩
  simp only [resized, List.mem_map] at hp
  obtain ⟨q, hq, rfl⟩ := hp
  split
  · exact h.nonneg
  · exact h.wf.1.2 q hq

private theorem resized_ne {v : Data K} {dim : Dim} {n m : Int} {old new : Edges K} (h : Rebinnable v dim n m old new) : resized v.x.view.dims dim m ≠ [] := by
  intro e
  have : v.x.view.dims = [] := by simpa [resized] using e
  have hd := h.along
  rw [this] at hd
  simp at hd

private theorem var_ok {v : Data K} {dim : Dim} {n m : Int} {old new : Edges K} (h : Rebinnable v dim n m old new)
    {f : (Dim → Int) → K} (hf : ∀ c, InDims v.x.view.dims c → (v.x.elem c).1 = some (f c)) :
    ∃ r, rebinVar v dim old new = .ok r ∧ r.dims = resized v.x.view.dims dim m ∧
      r.unit = v.unit ∧ r.type = outType v.type ∧ r.hasVariances = v.hasVariances ∧
      ∀ c, InDims (resized v.x.view.dims dim m) c →
        (r.elem c).1 = some (rebinnedRow (row new.x dim (m + 1) c) (row old.x dim (n + 1) c) (rowOf f dim n c) (c dim).toNat) ∧
        (Adjacent v.x.view dim ∨ old.x.view.dims.length ≠ 1 ∨ new.x.view.dims.length ≠ 1 →
          ∀ w : (Dim → Int) → K, (∀ c, InDims v.x.view.dims c → (v.x.elem c).2 = some (w c)) →
          (r.elem c).2 = some (rebinnedRow (row new.x dim (m + 1) c) (row old.x dim (n + 1) c) (rowOf w dim n c) (c dim).toNat)) ∧
        (¬ Adjacent v.x.view dim ∧ old.x.view.dims.length = 1 ∧ new.x.view.dims.length = 1 →
          ∀ w : (Dim → Int) → K, (∀ c, InDims v.x.view.dims c → (v.x.elem c).2 = some (w c)) →
          (r.elem c).2 = some (rebinnedRowVariance (row new.x dim (m + 1) c) (row old.x dim (n + 1) c) (rowOf w dim n c) (c dim).toNat)) := by
  have hstride := View.stride_eq h.wf.2.1 (mem_labels h.along)
  by_cases hs : strideOf v.x.view.dims v.x.view.strides dim = 1
  · have hadj := (adjacent_iff h.wf h.along).2 hs
    obtain ⟨r, r1, r2, r3, r4, r5, r6⟩ := core_ok h (.inl hadj) hf
    refine ⟨r, ?_, r2, r3, r4, r5, fun c hc => ⟨(r6 c hc).1, fun _ => (r6 c hc).2.1 hadj, fun hn => (hn.1 hadj).elim⟩⟩
    simp [rebinVar, hstride, hs, bind, Except.bind, r1]
  · have hnadj : ¬ Adjacent v.x.view dim := fun e => hs ((adjacent_iff h.wf h.along).1 e)
    by_cases h1 : old.x.view.dims.length ≠ 1 ∨ new.x.view.dims.length ≠ 1
    · obtain ⟨x, x1, x2, x3, x4, x5⟩ := C62_as_contiguous v.x h.wf h.valid dim n h.along
      obtain ⟨r, r1, r2, r3, r4, r5, r6⟩ := core_ok (h.perm x2 x4) (.inl x3) (f := f) (fun c hc => by
        rw [show ({ v with x := x } : Data K).x = x from rfl, x5 c (inDims_perm x4 hc)]; exact hf c (inDims_perm x4 hc))
      have hp := resized_perm x4 dim m
      have ht := dims_transpose (s := r.dims) (r2 ▸ resized_wf (h.perm x2 x4)) (t := resized v.x.view.dims dim m) (by rw [labels_resized]; exact h.valid) (resized_ne h) (r2 ▸ hp)
      rw [labels_resized] at ht
      refine ⟨{ r with dims := resized v.x.view.dims dim m }, ?_, rfl, r3, r4, r5, fun c hc => ?_⟩
      · simp only [rebinVar, hstride, bind, Except.bind, x1, r1, ht]
        rw [if_pos ⟨hs, h1⟩]
      · obtain ⟨q1, q2, -⟩ := r6 c (inDims_perm hp.symm hc)
        refine ⟨q1, fun _ w hw => q2 x3 w (fun c hc => ?_), fun hn => (h1.elim (fun e => e hn.2.1) (fun e => e hn.2.2)).elim⟩
        rw [show ({ v with x := x } : Data K).x = x from rfl, x5 c (inDims_perm x4 hc)]
        exact hw c (inDims_perm x4 hc)
    · have h2 : old.x.view.dims.length = 1 ∧ new.x.view.dims.length = 1 := by tauto
      obtain ⟨r, r1, r2, r3, r4, r5, r6⟩ := core_ok h (.inr h2) hf
      refine ⟨r, ?_, r2, r3, r4, r5, fun c hc => ⟨(r6 c hc).1, fun hor => ?_, fun _ => (r6 c hc).2.2 hnadj⟩⟩
      · simp only [rebinVar, hstride, bind, Except.bind, r1]
        rw [if_neg (fun h => h1 h.2)]
      · exact (hor.elim hnadj h1).elim

/-- **C84** (values): rebinning data with any number of dims, stored in any layout, along any of its dims gives every row the counts it should have: from every old bin the fraction given by the overlap. The edges
may have other dims of the data, and may be increasing or decreasing. Unit and order of the dims are those of the data.
Missing for the full claim: variances (`C84_variances_partial`), data with NaN, repeated edges (see C27 and C28), and edges for which what happens depends on the layout (`C84_unit_ignored`, `C84_types`). -/
theorem C84_values_partial (v : Data K) (dim : Dim) (n m : Int) (old new : Edges K) (h : Rebinnable v dim n m old new)
    (f : (Dim → Int) → K) (hf : ∀ c, InDims v.x.view.dims c → (v.x.elem c).1 = some (f c)) :
    ∃ r, rebinVar v dim old new = .ok r ∧ r.dims = resized v.x.view.dims dim m ∧
      r.unit = v.unit ∧ r.type = (match v.type with | .float32 => .float32 | _ => .float64) ∧ r.hasVariances = v.hasVariances ∧
      ∀ c, InDims r.dims c →
        (r.elem c).1 = some (rebinnedRow (row new.x dim (m + 1) c) (row old.x dim (n + 1) c) (rowOf f dim n c) (c dim).toNat) := by
  obtain ⟨r, r1, r2, r3, r4, r5, r6⟩ := var_ok h hf
  refine ⟨r, r1, r2, r3, ?_, r5, fun c hc => (r6 c (r2 ▸ hc)).1⟩
  rw [r4]
  cases v.type <;> rfl

/-- **C84** (variances): if the rows of the data are contiguous in memory, or if the edges have several dims, then variances are rebinned like values. Missing for the full claim: other layouts, for which it is false
(`C84_variance_depends_on_layout`). -/
theorem C84_variances_partial (v : Data K) (dim : Dim) (n m : Int) (old new : Edges K) (h : Rebinnable v dim n m old new)
    (f : (Dim → Int) → K) (hf : ∀ c, InDims v.x.view.dims c → (v.x.elem c).1 = some (f c))
    (hl : Adjacent v.x.view dim ∨ old.x.view.dims.length ≠ 1 ∨ new.x.view.dims.length ≠ 1)
    (w : (Dim → Int) → K) (hw : ∀ c, InDims v.x.view.dims c → (v.x.elem c).2 = some (w c)) :
    ∃ r, rebinVar v dim old new = .ok r ∧ ∀ c, InDims r.dims c →
      (r.elem c).2 = some (rebinnedRow (row new.x dim (m + 1) c) (row old.x dim (n + 1) c) (rowOf w dim n c) (c dim).toNat) := by
  obtain ⟨r, r1, r2, _, _, _, r6⟩ := var_ok h hf
  exact ⟨r, r1, fun c hc => (r6 c (r2 ▸ hc)).2.1 hl w hw⟩

/-- **C84** (variances for other layouts): if the rows are not contiguous and the edges have a single dim, variances are multiplied by the square of the fraction. -/
theorem C84_variances_outer (v : Data K) (dim : Dim) (n m : Int) (old new : Edges K) (h : Rebinnable v dim n m old new)
    (f : (Dim → Int) → K) (hf : ∀ c, InDims v.x.view.dims c → (v.x.elem c).1 = some (f c))
    (hl : ¬ Adjacent v.x.view dim ∧ old.x.view.dims.length = 1 ∧ new.x.view.dims.length = 1)
    (w : (Dim → Int) → K) (hw : ∀ c, InDims v.x.view.dims c → (v.x.elem c).2 = some (w c)) :
    ∃ r, rebinVar v dim old new = .ok r ∧ ∀ c, InDims r.dims c →
      (r.elem c).2 = some (rebinnedRowVariance (row new.x dim (m + 1) c) (row old.x dim (n + 1) c) (rowOf w dim n c) (c dim).toNat) := by
  obtain ⟨r, r1, r2, _, _, _, r6⟩ := var_ok h hf
  exact ⟨r, r1, fun c hc => (r6 c (r2 ▸ hc)).2.2 hl w hw⟩

/-- **C84** (layout): two variables with the same dims and elements but different strides, offsets and buffers give the same values. Missing for the full claim: as for `C84_values_partial`. -/
theorem C84_layout_partial (v v' : Data K) (dim : Dim) (n m : Int) (old new : Edges K) (h : Rebinnable v dim n m old new) (h' : Rebinnable v' dim n m old new)
    (hd : v'.x.view.dims = v.x.view.dims) (he : ∀ c, InDims v.x.view.dims c → v'.x.elem c = v.x.elem c)
    (hf : ∀ c, InDims v.x.view.dims c → (v.x.elem c).1 ≠ none) :
    ∃ r r', rebinVar v dim old new = .ok r ∧ rebinVar v' dim old new = .ok r' ∧ r'.dims = r.dims ∧ ∀ c, InDims r.dims c → (r'.elem c).1 = (r.elem c).1 := by
  have hf' : ∀ c, InDims v.x.view.dims c → (v.x.elem c).1 = some ((fun c => (v.x.elem c).1.getD 0) c) := by
    intro c hc
    have := hf c hc
    cases e : (v.x.elem c).1 with
    | none => exact (this e).elim
    | some x => simp [e]
  obtain ⟨r, r1, r2, _, _, _, r6⟩ := var_ok h hf'
  obtain ⟨r', r1', r2', _, _, _, r6'⟩ := var_ok h' (f := fun c => (v.x.elem c).1.getD 0) (fun c hc => by rw [he c (hd ▸ hc)]; exact hf' c (hd ▸ hc))
  refine ⟨r, r', r1, r1', by rw [r2, r2', hd], fun c hc => ?_⟩
  rw [(r6 c (r2 ▸ hc)).1, (r6' c (by rw [hd]; exact r2 ▸ hc)).1]

/-- **C84** (masks): masks that depend on `dim` are applied before rebinning: the masked elements count as zero. Masks not depending on `dim` have no effect. The result has the dims of the data with the new length,
but not necessarily in the same order (`C84_mask_changes_order`). -/
theorem C84_masked_partial (v : Data K) (dim : Dim) (n m : Int) (old new : Edges K) (h : Rebinnable v dim n m old new)
    (f : (Dim → Int) → K) (hf : ∀ c, InDims v.x.view.dims c → (v.x.elem c).1 = some (f c))
    (masks : List (Dim × MaskVar)) (hm : ∀ p ∈ masks, p.2.arr.Ok ∧ p.2.Plain ∧ ∀ q ∈ p.2.arr.dims, q ∈ v.x.view.dims) :
    ∃ r, rebinMasked v dim old new masks = .ok r ∧ r.dims.Perm (resized v.x.view.dims dim m) ∧ r.unit = v.unit ∧
      ∀ c, InDims r.dims c →
        (r.elem c).1 = some (rebinnedRow (row new.x dim (m + 1) c) (row old.x dim (n + 1) c)
          (rowOf (fun e => if maskedAlong masks dim e then 0 else f e) dim n c) (c dim).toNat) := by
  obtain ⟨u, hu, hu1, hu2⟩ := irreducible_loop h.wf.1 (dim := dim) masks none hm (by simp)
  have hval : ∀ c, maskedBy u c = maskedAlong masks dim c := by intro c; have := hu2 c; simpa [maskedBy] using this
  cases u with
  | none =>
    have hnone : ∀ c, maskedAlong masks dim c = false := fun c => by rw [← hval c]; rfl
    obtain ⟨r, r1, r2, r3, _, _, r6⟩ := var_ok h hf
    refine ⟨r, by simp only [rebinMasked, irreducibleMask, hu, bind, Except.bind, r1], r2 ▸ List.Perm.refl _, r3, fun c hc => ?_⟩
    rw [(r6 c (r2 ▸ hc)).1]
    simp [hnone]
  | some k =>
    obtain ⟨m1, m2, m3, m4⟩ := hu1 k rfl
    have hvo := ofVar_ok h.wf h.valid
    obtain ⟨x, hx⟩ := (zip_exists (f := fun (b : Bool) (e : Option K × Option K) => if b then (some 0, some 0) else e) m1 hvo).2 (by
      intro d a b ha hb
      exact compatible_of_subset h.wf.1 (fun q hq => hq) d a b (m3 _ ha) hb)
    obtain ⟨x1, x2, x3⟩ := zip_ok m1 hvo hx
    have hperm : x.dims.Perm v.x.view.dims := by
      refine (List.perm_ext_iff_of_nodup (List.Nodup.of_map _ x1.wf.1) (List.Nodup.of_map _ h.wf.1.1)).2 (fun p => ?_)
      rw [x2 p]
      exact ⟨fun h => h.elim (m3 p) id, .inr⟩
    have h' := h.perm (x := ofArr x) (fresh_WF x1.wf) hperm
    obtain ⟨r, r1, r2, r3, _, _, r6⟩ := var_ok h' (f := fun e => if maskedAlong masks dim e then 0 else f e) (fun c hc => by
      show ((ofArr x).elem c).1 = _
      rw [ofArr_elem x1 hc, x3]
      have := hval c
      simp only [maskedBy] at this
      simp only [this]
      split
      · rfl
      · exact hf c (inDims_perm hperm hc))
    refine ⟨r, ?_, r2 ▸ resized_perm hperm dim m, r3, fun c hc => (r6 c (r2 ▸ hc)).1⟩
    simp only [rebinMasked, irreducibleMask, hu, bind, Except.bind, whereMask, m2.bool, m2.unit, Bool.not_true, Bool.false_eq_true, if_false, hx, r1]

/-! ### What depends on the layout -/

/-- If the rows of the data are not contiguous, then the units of the edges are ignored: any other unit of the new edges gives the same result. If they are contiguous, then different units are refused. -/
theorem C84_unit_ignored (v : Data K) (dim : Dim) (n m : Int) (old new : Edges K) (h : Rebinnable v dim n m old new) (u : Nat) (hu : u ≠ old.unit) :
    (¬ Adjacent v.x.view dim → old.x.view.dims.length = 1 → new.x.view.dims.length = 1 →
      rebinVar v dim old { new with unit := u } = rebinVar v dim old new) ∧
    (Adjacent v.x.view dim → rebinVar v dim old { new with unit := u } = .error .unit) := by
  have hstride := View.stride_eq h.wf.2.1 (mem_labels h.along)
  constructor
  · intro hna ho hn
    have hs : strideOf v.x.view.dims v.x.view.strides dim ≠ 1 := fun e => hna ((adjacent_iff h.wf h.along).2 e)
    simp only [rebinVar, hstride, bind, Except.bind, ho, hn, ne_eq, not_true, or_self, and_false, if_false, rebinCore, hs]
    rfl
  · intro hadj
    have hs := (adjacent_iff h.wf h.along).1 hadj
    have hei : ∀ {e : Edges K} {k : Int}, FitsData e dim k v.x.view.dims → Dim.invalid ∉ labels e.x.view.dims := by
      intro e k he hc
      obtain ⟨j, hj⟩ := at?_ok_of_mem_labels hc
      by_cases hdim : Dim.invalid = dim
      · exact h.valid (hdim ▸ mem_labels h.along)
      · exact h.valid (mem_labels (he.others _ (at?_ok_mem hj) hdim))
    obtain ⟨xo, xo1, xo2, xo3, xo4, xo5⟩ := C62_as_contiguous old.x h.old_fits.wf (hei h.old_fits) dim (n + 1) h.old_fits.along
    obtain ⟨xn, xn1, xn2, xn3, xn4, xn5⟩ := C62_as_contiguous new.x h.new_fits.wf (hei h.new_fits) dim (m + 1) h.new_fits.along
    obtain ⟨asc, sorted, hasc, hsorted, rfl, _⟩ := direction h
    have hasc' : bothSorted dim .ascending old { new with unit := u } = .ok asc := hasc
    have hsorted' : (if asc = true then (.ok true : Except Err Bool) else bothSorted dim .descending old { new with unit := u }) = .ok true := hsorted
    have hofit : FitsData { old with x := xo } dim (n + 1) v.x.view.dims :=
      ⟨xo2, xo4.mem_iff.2 h.old_fits.along, fun p hp hne => h.old_fits.others p (xo4.mem_iff.1 hp) hne⟩
    have hnfit : FitsData { new with x := xn, unit := u } dim (m + 1) v.x.view.dims :=
      ⟨xn2, xn4.mem_iff.2 h.new_fits.along, fun p hp hne => h.new_fits.others p (xn4.mem_iff.1 hp) hne⟩
    have hinner := inner_unit (less := if asc = true then fun a b => decide (a < b) else fun a b => decide (b < a)) h.wf h.valid h.along hofit hnfit h.nonneg hu
    simp only [rebinVar, hstride, hs, bind, Except.bind, ne_eq, not_true, false_and, if_false, rebinCore, isEdges_fits h.wf h.valid h.along h.old_fits, h.dense, hasc', xo1, xn1]
    simp only [if_true, Bool.not_true, Bool.false_eq_true, if_false, hinner]
    split
    · rfl
    · rename_i hna
      rw [if_neg hna] at hsorted'
      simp only [hsorted', Bool.not_true, Bool.false_eq_true, if_false]

private def rvEdges (vals : List ℚ) (type : EdgeType) (unit : Nat) : Edges ℚ := ⟨⟨⟨[(4, (vals.length : Int))], [1], 0, false⟩, fun a => vals.getD a.toNat 0⟩, type, unit, false⟩

/-- Data with the values and variances 1, 2, 3, 4 and dims 4 and 5; along dim 4 the rows are not contiguous. -/
private def rvApart : Data ℚ := ⟨⟨⟨[(4, 2), (5, 2)], [2, 1], 0, false⟩, fun a => (some (a + 1), some (a + 1))⟩, true, .float64, 9, false⟩

/-- The same data in transposed memory order; along dim 4 the rows are contiguous. -/
private def rvClose : Data ℚ :=
  ⟨⟨⟨[(4, 2), (5, 2)], [1, 2], 0, false⟩, fun a => ([(some 1, some 1), (some 3, some 3), (some 2, some 2), (some 4, some 4)] : List (Option ℚ × Option ℚ)).getD a.toNat (none, none)⟩,
    true, .float64, 9, false⟩

private def rvAt (i j : Int) : Dim → Int := fun d => if d = 4 then i else j

/-- Two variables with the same elements, of which half a bin is moved to a new bin. For contiguous rows the variance is multiplied by the fraction, for other layouts by the square of the fraction: the variances of the
result depend on the memory layout. -/
theorem C84_variance_depends_on_layout :
    (∀ c, InDims [(4, 2), (5, 2)] c → rvApart.x.elem c = rvClose.x.elem c) ∧
    (rebinVar rvClose 4 (rvEdges [0, 1, 2] .float64 3) (rvEdges [0, 1/2] .float64 3)).map (fun r => r.elem (rvAt 0 0)) = .ok (some (1/2), some (1/2)) ∧
    (rebinVar rvApart 4 (rvEdges [0, 1, 2] .float64 3) (rvEdges [0, 1/2] .float64 3)).map (fun r => r.elem (rvAt 0 0)) = .ok (some (1/2), some (1/4)) := by
  refine ⟨fun c hc => ?_, by decide +kernel, by decide +kernel⟩
  have h1 := hc 4 2 (by simp)
  have h2 := hc 5 2 (by simp)
  have h3 : c 4 = 0 ∨ c 4 = 1 := by omega
  have h4 : c 5 = 0 ∨ c 5 = 1 := by omega
  rcases h3 with h3 | h3 <;> rcases h4 with h4 | h4 <;> simp [rvApart, rvClose, Var.elem, View.addr, addrAux, h3, h4] <;> norm_num

/-- Which types of edges are supported depends on the layout: edges that are dates, and `float32` edges for `float32` data with old `float64` edges, only for contiguous rows; `float32` edges for `float64` data only for
other layouts. -/
theorem C84_types :
    ((rebinVar rvClose 4 (rvEdges [0, 1, 2] .datetime 3) (rvEdges [0, 1] .datetime 3)).map (fun r => (r.elem (rvAt 0 0)).1) = .ok (some 1) ∧
      (rebinVar rvApart 4 (rvEdges [0, 1, 2] .datetime 3) (rvEdges [0, 1] .datetime 3)).map (fun r => (r.elem (rvAt 0 0)).1) = .error .dtype) ∧
    ((rebinVar { rvClose with type := .float32 } 4 (rvEdges [0, 1, 2] .float64 3) (rvEdges [0, 1] .float32 3)).map (fun r => (r.elem (rvAt 0 0)).1) = .ok (some 1) ∧
      (rebinVar { rvApart with type := .float32 } 4 (rvEdges [0, 1, 2] .float64 3) (rvEdges [0, 1] .float32 3)).map (fun r => (r.elem (rvAt 0 0)).1) = .error .dtype) ∧
    ((rebinVar rvClose 4 (rvEdges [0, 1, 2] .float32 3) (rvEdges [0, 1] .float32 3)).map (fun r => (r.elem (rvAt 0 0)).1) = .error .dtype ∧
      (rebinVar rvApart 4 (rvEdges [0, 1, 2] .float32 3) (rvEdges [0, 1] .float32 3)).map (fun r => (r.elem (rvAt 0 0)).1) = .ok (some 1)) := by
  decide +kernel

private def rvMask : MaskVar := { arr := ⟨[(5, 2), (4, 2)], fun c => decide (c 4 = 0 ∧ c 5 = 1)⟩ }

/-- Without a mask the result has the order of dims of the data; with a mask whose dims are in another order it has the order of the mask. -/
theorem C84_mask_changes_order :
    (rebinMasked rvApart 4 (rvEdges [0, 1, 2] .float64 3) (rvEdges [0, 2] .float64 3) []).map (fun r => (r.dims, (r.elem (rvAt 0 1)).1)) = .ok ([(4, 1), (5, 2)], some 6) ∧
    (rebinMasked rvApart 4 (rvEdges [0, 1, 2] .float64 3) (rvEdges [0, 2] .float64 3) [(7, rvMask)]).map (fun r => (r.dims, (r.elem (rvAt 0 1)).1)) = .ok ([(5, 2), (4, 1)], some 4) := by
  decide +kernel

private theorem rvEdges_fits (vals : List ℚ) (type : EdgeType) (unit : Nat) (dims : Dims) : FitsData (rvEdges vals type unit) 4 vals.length dims :=
  ⟨by simp [rvEdges, View.WF, Sizes.WF, labels], by simp [rvEdges], fun p hp hne => by simp [rvEdges] at hp; simp [hp] at hne⟩

private theorem rvEdges_elem (vals : List ℚ) (type : EdgeType) (unit : Nat) (c : Dim → Int) (i : Int) : (rvEdges vals type unit).x.elem (upd c 4 i) = vals.getD i.toNat 0 := by
  simp [rvEdges, Var.elem, View.addr, addrAux]

private theorem rv_ok (v : Data ℚ) (hw : v.x.view.WF) (hd : v.x.view.dims = [(4, 2), (5, 2)]) (hb : v.binned = false) :
    Rebinnable v 4 2 2 (rvEdges [0, 1, 2] .float64 3) (rvEdges [0, 1/2, 3] .float64 3) := by
  refine ⟨hw, by simp [hd, labels, Dim.invalid], by simp [hd], by norm_num, hb, rvEdges_fits [0, 1, 2] _ _ _, rvEdges_fits [0, 1/2, 3] _ _ _, by norm_num, rfl, ⟨rfl, rfl⟩, .inl ⟨rfl, rfl⟩, .inl ⟨?_, ?_⟩⟩
  · intro c _ i h0 h1
    have : i = 0 ∨ i = 1 := by omega
    rw [rvEdges_elem, rvEdges_elem]
    rcases this with rfl | rfl <;> decide +kernel
  · intro c _ i h0 h1
    have : i = 0 ∨ i = 1 := by omega
    rw [rvEdges_elem, rvEdges_elem]
    rcases this with rfl | rfl <;> decide +kernel

private theorem rvApart_ok : Rebinnable rvApart 4 2 2 (rvEdges [0, 1, 2] .float64 3) (rvEdges [0, 1/2, 3] .float64 3) :=
  rv_ok rvApart (by simp [rvApart, View.WF, Sizes.WF, labels]) rfl rfl

private theorem rvClose_ok : Rebinnable rvClose 4 2 2 (rvEdges [0, 1, 2] .float64 3) (rvEdges [0, 1/2, 3] .float64 3) :=
  rv_ok rvClose (by simp [rvClose, View.WF, Sizes.WF, labels]) rfl rfl

private theorem rvApart_elem (c : Dim → Int) : rvApart.x.elem c = (some ((2 * c 4 + c 5 : ℚ) + 1), some ((2 * c 4 + c 5 : ℚ) + 1)) := by
  simp [rvApart, Var.elem, View.addr, addrAux]
  ring

private theorem rvClose_elem (c : Dim → Int) (hc : InDims [(4, 2), (5, 2)] c) : rvClose.x.elem c = (some ((2 * c 4 + c 5 : ℚ) + 1), some ((2 * c 4 + c 5 : ℚ) + 1)) := by
  rw [← C84_variance_depends_on_layout.1 c hc, rvApart_elem]

example := C84_values_partial rvApart 4 2 2 _ _ rvApart_ok (fun c => (2 * c 4 + c 5 : ℚ) + 1) (fun c _ => by rw [rvApart_elem])

example := C84_variances_partial rvClose 4 2 2 _ _ rvClose_ok (fun c => (2 * c 4 + c 5 : ℚ) + 1) (fun c hc => by rw [rvClose_elem c hc])
  (.inl fun c i => by simp [rvClose, View.addr, addrAux, upd]; ring) (fun c => (2 * c 4 + c 5 : ℚ) + 1) (fun c hc => by rw [rvClose_elem c hc])

example := C84_variances_outer rvApart 4 2 2 _ _ rvApart_ok (fun c => (2 * c 4 + c 5 : ℚ) + 1) (fun c _ => by rw [rvApart_elem])
  ⟨fun h => by have := h (fun _ => 0) 0; revert this; decide, rfl, rfl⟩ (fun c => (2 * c 4 + c 5 : ℚ) + 1) (fun c _ => by rw [rvApart_elem])

example := C84_layout_partial rvApart rvClose 4 2 2 _ _ rvApart_ok rvClose_ok rfl (fun c hc => (C84_variance_depends_on_layout.1 c hc).symm)
  (fun c _ => by rw [rvApart_elem]; simp)

example := (C84_unit_ignored rvApart 4 2 2 _ _ rvApart_ok 5 (by decide)).1 (fun h => by have := h (fun _ => 0) 0; revert this; decide) rfl rfl

example := (C84_unit_ignored rvClose 4 2 2 _ _ rvClose_ok 5 (by decide)).2 (fun c i => by simp [rvClose, View.addr, addrAux, upd]; ring)

example := C84_masked_partial rvApart 4 2 2 _ _ rvApart_ok (fun c => (2 * c 4 + c 5 : ℚ) + 1) (fun c _ => by rw [rvApart_elem]) [(7, rvMask)] (by
  intro p hp
  simp only [List.mem_singleton] at hp
  subst hp
  refine ⟨⟨by simp [rvMask, Sizes.WF, labels], by simp [rvMask, labels, Dim.invalid], fun c c' h => ?_⟩, ⟨rfl, rfl⟩, fun q hq => ?_⟩
  · simp [rvMask, labels] at h ⊢
    rw [h.1, h.2]
  · simp [rvMask] at hq
    rcases hq with rfl | rfl <;> simp [rvApart])

/-- Half of the first bin and the rest, for both layouts; the new edges extend beyond the old ones. -/
example : ∀ v ∈ [rvApart, rvClose], (rebinVar v 4 (rvEdges [0, 1, 2] .float64 3) (rvEdges [0, 1/2, 3] .float64 3)).map
    (fun r => (r.dims, [rvAt 0 0, rvAt 0 1, rvAt 1 0, rvAt 1 1].map fun c => (r.elem c).1)) = .ok ([(4, 2), (5, 2)], [some (1/2), some 1, some (7/2), some 5]) := by
  decide +kernel

/-- Decreasing edges that differ between the positions of the other dim; for both layouts. -/
private def rvEdges2 (vals : List ℚ) (n : Int) : Edges ℚ := ⟨⟨⟨[(5, 2), (4, n)], [n, 1], 0, false⟩, fun a => vals.getD a.toNat 0⟩, .float64, 3, false⟩

example : ∀ v ∈ [rvApart, rvClose], (rebinVar v 4 (rvEdges2 [2, 1, 0, 4, 2, 0] 3) (rvEdges2 [2, 0, 3, 2] 2)).map
    (fun r => (r.dims, [rvAt 0 0, rvAt 0 1].map fun c => r.elem c)) = .ok ([(4, 1), (5, 2)], [(some 4, some 4), (some 1, some 1)]) := by
  decide +kernel

end Scipp.Props
