import Verif.Lemmas.NumpyReduce
import Verif.Props.Masks
import Mathlib.Data.List.Perm.Basic
import Mathlib.Algebra.BigOperators.Group.List.Basic
namespace Scipp.NpRed
open Sizes
variable {V W U : Type}

theorem upd_comm {c : Dim → Int} {d e : Dim} (h : d ≠ e) (i j : Int) : upd (upd c d i) e j = upd (upd c e j) d i := by
  funext x
  unfold upd
  by_cases h1 : x = e
  · subst h1; rw [if_pos rfl, if_neg (Ne.symm h), if_pos rfl]
  · rw [if_neg h1]
    by_cases h2 : x = d
    · rw [if_pos h2, if_pos h2]
    · rw [if_neg h2, if_neg h2, if_neg h1]

theorem over_upd : ∀ (s : Dims) (c : Dim → Int) (d : Dim) (i : Int), d ∉ labels s → over s (upd c d i) = (over s c).map (fun e => upd e d i)
  | [], c, d, i, _ => by simp [over]
  | (x, n) :: s, c, d, i, h => by
    simp only [labels_cons, List.mem_cons, not_or] at h
    rw [over, over, List.map_flatMap]
    congr 1
    funext j
    rw [upd_comm h.1, over_upd s _ d i h.2]

theorem flatMap_swap {α β γ : Type} (f : α → β → γ) (l2 : List β) : ∀ (l1 : List α),
    (l1.flatMap (fun a => l2.map (f a))).Perm (l2.flatMap (fun b => l1.map (fun a => f a b)))
  | [] => by simp
  | a :: l1 => by
    rw [List.flatMap_cons]
    refine ((flatMap_swap f l2 l1).append_left _).trans ?_
    simp only [List.map_cons]
    exact List.map_append_flatMap_perm l2 (f a) (fun b => l1.map (fun a => f a b))

/-- Reducing `d` and then the other dims visits the same coordinates. -/
theorem over_split {d : Dim} {n : Int} {ds : List Dim} (hd : d ∉ ds) : ∀ (s : Dims) (c : Dim → Int), (labels s).Nodup → (d, n) ∈ s →
    (over (redDims s (d :: ds)) c).Perm ((over (redDims (s.filter (fun p => decide (p.1 ≠ d))) ds) c).flatMap (fun e => (intRange 0 n).map (fun j => upd e d j)))
  | [], _, _, h => by simp at h
  | (x, m) :: s, c, hn, h => by
    simp only [labels_cons, List.nodup_cons] at hn
    rw [redDims_cons]
    by_cases hx : x = d
    · subst hx
      have hm : n = m := by
        rcases List.mem_cons.1 h with h | h
        · cases h; rfl
        · exact absurd (mem_labels h) hn.1
      subst hm
      have e1 : redDims s (x :: ds) = redDims s ds := by
        unfold redDims
        refine List.filter_congr (fun p hp => ?_)
        have : p.1 ≠ x := by rintro rfl; exact hn.1 (mem_labels (x := p.2) hp)
        simp [this]
      have e2 : ((x, n) :: s).filter (fun p => decide (p.1 ≠ x)) = s := by
        rw [List.filter_cons_of_neg (by simp), List.filter_eq_self]
        intro p hp
        have : p.1 ≠ x := by rintro rfl; exact hn.1 (mem_labels (x := p.2) hp)
        simpa using this
      rw [if_pos (by simp), e1, e2, over]
      have hnot : x ∉ labels (redDims s ds) := by
        intro hc
        obtain ⟨p, hp, rfl⟩ := List.mem_map.1 hc
        exact hn.1 (mem_labels (x := p.2) (List.mem_filter.1 hp).1)
      simp only [over_upd _ c x _ hnot]
      exact flatMap_swap (fun j e => upd e x j) (over (redDims s ds) c) (intRange 0 n)
    · have hs : (d, n) ∈ s := by
        rcases List.mem_cons.1 h with h | h
        · cases h; exact absurd rfl hx
        · exact h
      have hiff : x ∈ d :: ds ↔ x ∈ ds := by simp [hx]
      rw [List.filter_cons_of_pos (by simpa using hx), redDims_cons]
      by_cases hm : x ∈ ds
      · rw [if_pos (hiff.2 hm), if_pos hm, over, over, List.flatMap_assoc]
        exact List.Perm.flatMap_left _ (fun i _ => over_split hd s (upd c x i) hn.2 hs)
      · rw [if_neg (fun h => hm (hiff.1 h)), if_neg hm]
        exact over_split hd s c hn.2 hs

theorem sum_map_flatMap [AddCommMonoid V] {α : Type} (f : α → V) (g : α → List α) : ∀ (l : List α),
    ((l.flatMap g).map f).sum = (l.map (fun e => ((g e).map f).sum)).sum
  | [] => by simp
  | a :: l => by simp [sum_map_flatMap f g l]

theorem sum_ite [AddCommMonoid V] (P : (Dim → Int) → Bool) (x : (Dim → Int) → V) : ∀ (l : List (Dim → Int)),
    ((l.filter P).map x).sum = (l.map (fun e => if P e then x e else 0)).sum
  | [] => by simp
  | a :: l => by
    by_cases h : P a = true
    · simp [h, sum_ite P x l]
    · simp [h, sum_ite P x l]

theorem over_mem : ∀ {s : Dims} {c e : Dim → Int}, e ∈ over s c → ∀ d, d ∉ labels s → e d = c d
  | [], c, e, h, d, _ => by simp [over] at h; rw [h]
  | (x, n) :: s, c, e, h, d, hd => by
    simp only [labels_cons, List.mem_cons, not_or] at hd
    simp only [over, List.mem_flatMap] at h
    obtain ⟨i, -, h⟩ := h
    rw [over_mem h d hd.2, upd, if_neg hd.1]

theorem indep_eq {masks : List (Dim × MaskVar)} {d : Dim} : independentMasks masks d =
    (reducedItems (fun m => m.arr.dims) masks [d]).map (fun p => (p.1, p.2.copy)) := by
  unfold independentMasks reducedItems
  congr 1
  refine List.filter_congr (fun p _ => ?_)
  rw [depends_iff]
  congr 1
  rw [Bool.eq_iff_iff, contains_iff, decide_eq_true_eq]
  simp [Depends]

/-- Masks that depend on `d` or on the other dims. -/
theorem masked_split {D : Dims} {masks : List (Dim × MaskVar)} (hm : ∀ p ∈ masks, Good D p.2) (d : Dim) (ds : List Dim) (e : Dim → Int) (j : Int) :
    maskedAt masks (d :: ds) (upd e d j) = (maskedAlong masks d (upd e d j) || maskedAt (independentMasks masks d) ds e) := by
  induction masks with
  | nil => rfl
  | cons p masks ih =>
    have hp := hm p (by simp)
    have ih := ih (fun q hq => hm q (List.mem_cons_of_mem _ hq))
    have e1 : maskedAt (p :: masks) (d :: ds) (upd e d j) =
        (decide (Depends p.2.arr.dims (d :: ds)) && p.2.arr.val (upd e d j) || maskedAt masks (d :: ds) (upd e d j)) := rfl
    have e2 : maskedAlong (p :: masks) d (upd e d j) = (contains p.2.arr.dims d && p.2.arr.val (upd e d j) || maskedAlong masks d (upd e d j)) := rfl
    rw [e1, e2, ih]
    by_cases hc : contains p.2.arr.dims d = true
    · have h1 : independentMasks (p :: masks) d = independentMasks masks d := by simp [independentMasks, hc]
      have h2 : Depends p.2.arr.dims (d :: ds) := ⟨d, by simp, contains_iff.1 hc⟩
      rw [h1, hc]
      simp only [h2, decide_true, Bool.true_and, Bool.or_assoc]
    · have h1 : independentMasks (p :: masks) d = (p.1, p.2.copy) :: independentMasks masks d := by simp [independentMasks, hc]
      have hnl : d ∉ labels p.2.arr.dims := fun h => hc (contains_iff.2 h)
      have h2 : decide (Depends p.2.arr.dims (d :: ds)) = decide (Depends p.2.arr.dims ds) := by
        rw [Bool.eq_iff_iff, decide_eq_true_eq, decide_eq_true_eq]
        constructor
        · rintro ⟨x, h, h'⟩
          rcases List.mem_cons.1 h with rfl | h
          · exact absurd h' hnl
          · exact ⟨x, h, h'⟩
        · rintro ⟨x, h, h'⟩; exact ⟨x, List.mem_cons_of_mem _ h, h'⟩
      have h3 : p.2.arr.val (upd e d j) = p.2.arr.val e := by
        refine hp.1.own _ _ (fun x hx => ?_)
        unfold upd
        rw [if_neg (by rintro rfl; exact hnl hx)]
      have h4 : maskedAt ((p.1, p.2.copy) :: independentMasks masks d) ds e =
        (decide (Depends p.2.arr.dims ds) && p.2.arr.val e || maskedAt (independentMasks masks d) ds e) := rfl
      rw [h1, h4, h2, h3]
      simp only [Bool.not_eq_true] at hc
      rw [hc, Bool.false_and, Bool.false_or]
      cases (decide (Depends p.2.arr.dims ds) && p.2.arr.val e) <;> cases maskedAlong masks d (upd e d j) <;> simp

theorem reduceArray_masks {op : W → V → W} {i : W} {f : V} {a : MaskedArr V} {d : Dim} {r : MaskedArr W} (h : reduceArray op i f a d = .ok r) :
    r.masks = independentMasks a.masks d := by
  unfold reduceArray at h
  split at h
  · cases h
  · cases h; rfl

theorem kept_filter (s : Dims) (d : Dim) (ds : List Dim) : keptDims (s.filter (fun p => decide (p.1 ≠ d))) ds = keptDims s (d :: ds) := by
  unfold keptDims
  rw [List.filter_filter]
  refine List.filter_congr (fun p _ => ?_)
  rw [Bool.eq_iff_iff]
  simp [not_or, and_comm]

theorem copies_twice (masks : List (Dim × MaskVar)) (d : Dim) (ds : List Dim) :
    (reducedItems (fun m : MaskVar => m.arr.dims) (independentMasks masks d) ds).map (fun p => (p.1, p.2.copy)) =
      (reducedItems (fun m : MaskVar => m.arr.dims) masks (d :: ds)).map (fun p => (p.1, p.2.copy)) := by
  induction masks with
  | nil => rfl
  | cons p masks ih =>
    by_cases hc : contains p.2.arr.dims d = true
    · have h1 : independentMasks (p :: masks) d = independentMasks masks d := by simp [independentMasks, hc]
      have h2 : Depends p.2.arr.dims (d :: ds) := ⟨d, by simp, contains_iff.1 hc⟩
      have h3 : reducedItems (fun m : MaskVar => m.arr.dims) (p :: masks) (d :: ds) = reducedItems (fun m : MaskVar => m.arr.dims) masks (d :: ds) := by
        simp [reducedItems, depends_iff, h2]
      rw [h1, h3, ih]
    · have h1 : independentMasks (p :: masks) d = (p.1, p.2.copy) :: independentMasks masks d := by simp [independentMasks, hc]
      have hnl : d ∉ labels p.2.arr.dims := fun h => hc (contains_iff.2 h)
      have h2 : Depends p.2.arr.dims (d :: ds) ↔ Depends p.2.arr.dims ds := by
        constructor
        · rintro ⟨x, h, h'⟩
          rcases List.mem_cons.1 h with rfl | h
          · exact absurd h' hnl
          · exact ⟨x, h, h'⟩
        · rintro ⟨x, h, h'⟩; exact ⟨x, List.mem_cons_of_mem _ h, h'⟩
      rw [h1]
      unfold reducedItems at ih ⊢
      by_cases hd : Depends p.2.arr.dims ds
      · rw [List.filter_cons_of_neg (by simp [depends_iff, MaskVar.copy, hd]), List.filter_cons_of_neg (by simp [depends_iff, h2, hd]), ih]
      · rw [List.filter_cons_of_pos (by simp [depends_iff, MaskVar.copy, hd]), List.filter_cons_of_pos (by simp [depends_iff, h2, hd])]
        simp only [List.map_cons, ih]
        rfl

/-- Sums over one dim after the other. -/
theorem sumDims_ok [AddCommMonoid V] : ∀ (ds : List Dim) (x : MaskedArr V), x.Ok → ValidDims x.data.dims ds →
    ∃ r, sumDims x ds = .ok r ∧ r.data.dims = keptDims x.data.dims ds ∧
      (∀ c, r.data.val c = (contributing x.data x.masks ds c).sum) ∧
      r.masks.map (fun p => (p.1, p.2.copy)) = (reducedItems (fun m : MaskVar => m.arr.dims) x.masks ds).map (fun p => (p.1, p.2.copy))
  | [], x, _, _ => by
    have hr : redDims x.data.dims [] = [] := by simp [redDims]
    refine ⟨x, rfl, by simp [keptDims], fun c => ?_, ?_⟩
    · have hm : maskedAt x.masks [] c = false := by
        unfold maskedAt
        rw [List.any_eq_false]
        intro p _
        simp [Depends]
      simp [contributing, hr, over, hm]
    · have hm : reducedItems (fun m : MaskVar => m.arr.dims) x.masks [] = x.masks := by
        unfold reducedItems
        rw [List.filter_eq_self]
        intro p _
        simp [dependsOn]
      rw [hm]
  | d :: ds, x, hx, hv => by
    obtain ⟨hv1, hv2⟩ := hv
    rw [List.nodup_cons] at hv1
    obtain ⟨n, hn⟩ := at?_ok_of_mem_labels (hv2 d (by simp))
    have hdn := at?_ok_mem hn
    obtain ⟨out, ho, ho1, ho2, -⟩ := Props.C38_sum (fun a b : V => a + b) 0 add_zero x hx d n hdn
    have hom := reduceArray_masks ho
    have how : out.data.Ok := by
      refine ⟨by rw [ho1]; exact sublist_WF List.filter_sublist hx.data.wf, ?_, ?_⟩
      · rw [ho1]; intro hc; exact hx.data.valid (labels_filter_mem.1 hc).1
      · intro c c' hcc
        rw [ho2, ho2]
        have hval : ∀ (A : Type) (y : Arr A), y.Ok → (∀ q ∈ y.dims, q ∈ x.data.dims) → ∀ j, y.val (upd c d j) = y.val (upd c' d j) := by
          intro A y hy hs j
          refine hy.own _ _ (fun e he => ?_)
          unfold upd
          by_cases h : e = d
          · rw [if_pos h, if_pos h]
          · rw [if_neg h, if_neg h]
            refine hcc e ?_
            rw [ho1]
            exact labels_filter_mem.2 ⟨labels_mono hs e he, h⟩
        have hmask : ∀ j, maskedAlong x.masks d (upd c d j) = maskedAlong x.masks d (upd c' d j) := by
          intro j
          unfold maskedAlong
          rw [Bool.eq_iff_iff, List.any_eq_true, List.any_eq_true]
          constructor
          · rintro ⟨p, hp, h⟩
            refine ⟨p, hp, ?_⟩
            rw [← hval _ p.2.arr (hx.masks p hp).1 (hx.masks p hp).2.2 j]; exact h
          · rintro ⟨p, hp, h⟩
            refine ⟨p, hp, ?_⟩
            rw [hval _ p.2.arr (hx.masks p hp).1 (hx.masks p hp).2.2 j]; exact h
        unfold unmaskedRow
        simp only [hmask, hval _ x.data hx.data (fun q h => h)]
    have hok : out.Ok := by
      have := maskedArr_next hx how ho1
      rw [← hom] at this
      exact this
    have hvd : ValidDims out.data.dims ds := by
      refine ⟨hv1.2, fun e he => ?_⟩
      rw [ho1]
      exact labels_filter_mem.2 ⟨hv2 e (List.mem_cons_of_mem _ he), fun h => hv1.1 (h ▸ he)⟩
    obtain ⟨r, hr, h1, h2, h3⟩ := sumDims_ok ds out hok hvd
    refine ⟨r, ?_, by rw [h1, ho1, kept_filter], fun c => ?_, by rw [h3, hom, copies_twice]⟩
    · unfold sumDims at hr ⊢
      rw [List.foldlM_cons]
      simp only [bind, Except.bind, ho]
      exact hr
    · rw [h2]
      unfold contributing
      rw [sum_ite, sum_ite]
      have hp := over_split (n := n) hv1.1 x.data.dims c hx.data.wf.1 hdn
      rw [(hp.map _).sum_eq, sum_map_flatMap, ho1]
      refine congrArg List.sum (List.map_congr_left (fun e _ => ?_))
      have hgood : ∀ p ∈ x.masks, Good x.data.dims p.2 := hx.masks
      rw [List.map_map, hom, ho2]
      dsimp only
      rw [← List.sum_eq_foldl]
      symm
      unfold unmaskedRow
      simp only [Function.comp_def, masked_split hgood]
      by_cases hb : maskedAt (independentMasks x.masks d) ds e = true
      · simp [hb]
      · simp only [Bool.not_eq_true] at hb
        simp only [hb, Bool.or_false, Bool.not_false, if_true]
        have := sum_ite (V := V) (fun c => !maskedAlong x.masks d c) x.data.val ((intRange 0 n).map (fun j => upd e d j))
        rw [List.filter_map, List.map_map, List.map_map] at this
        exact this.symm

end Scipp.NpRed
