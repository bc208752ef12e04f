import Verif.Spec.Naturality
import Verif.Props.Reduce
import Verif.Lemmas.SizedDict
import Verif.Lemmas.Concat
import Mathlib.Data.List.TakeWhile
namespace Scipp
open Sizes Props
variable {V : Type}

/-- Coordinates in the unsliced data. -/
def sliceCoords (p : Slice) (c : Dim → Int) : Dim → Int := upd c p.dim (if p.stop = -1 then p.start else p.start + c p.dim * p.stride)

theorem slice_facts {v v' : View} {p : Slice} (hw : v.WF) (hp : p.Constructed) (h : v.slice p = .ok v') :
    (∀ c, v'.addr c = v.addr (sliceCoords p c)) ∧ (∀ c, InDims v'.dims c → InDims v.dims (sliceCoords p c)) ∧
    (∀ d n, d ≠ p.dim → ((d, n) ∈ v'.dims ↔ (d, n) ∈ v.dims)) ∧
    (p.stop = -1 → labels v'.dims = (labels v.dims).filter (· ≠ p.dim)) ∧
    (p.stop ≠ -1 → labels v'.dims = labels v.dims ∧ ∃ n, (p.dim, n) ∈ v'.dims ∧ ∀ i, 0 ≤ i → (i < n ↔ p.start + i * p.stride < p.stop)) := by
  obtain ⟨d, b, e, st⟩ := p
  by_cases he : e = -1
  · subst he
    obtain ⟨h1, h2, h3, h4⟩ := C04_point_slice v v' d b st hw hp h
    refine ⟨fun c => by simpa [sliceCoords] using h3 c, fun c hc => by simpa [sliceCoords] using h4 c hc, ?_, fun _ => h1, fun hn => absurd rfl hn⟩
    intro d' n hd
    rw [h2]
    exact ⟨And.left, fun h => ⟨h, hd⟩⟩
  · obtain ⟨h1, h2, h3, h4, h5⟩ := C04_range_slice v v' d b e st hw hp he h
    exact ⟨fun c => by simpa [sliceCoords, he] using h4 c, fun c hc => by simpa [sliceCoords, he] using h5 c hc, fun d' n hd => h2 d' n hd,
      fun hn => absurd hn he, fun _ => ⟨h1, h3⟩⟩

theorem addr_sliceCoords {v : View} {p : Slice} (h : p.dim ∉ labels v.dims) (c : Dim → Int) : v.addr (sliceCoords p c) = v.addr c := by
  unfold View.addr sliceCoords; rw [addrAux_upd h]

theorem labels_eq_iff {a b : Dims} : (labels a).Nodup → labels a = labels b → (∀ q, q ∈ a ↔ q ∈ b) → a = b := by
  induction a generalizing b with
  | nil =>
    intro _ hl _
    cases b with
    | nil => rfl
    | cons q b => simp at hl
  | cons p a ih =>
    intro hn hl hm
    cases b with
    | nil => simp at hl
    | cons q b =>
      simp only [labels_cons, List.cons.injEq] at hl
      rw [labels_cons, List.nodup_cons] at hn
      have hpq : p = q := by
        rcases List.mem_cons.1 ((hm p).1 List.mem_cons_self) with h | h
        · exact h
        · exact absurd (by rw [hl.2]; exact mem_labels (d := p.1) (x := p.2) h) hn.1
      subst hpq
      congr 1
      apply ih hn.2 hl.2
      intro r
      have hr := hm r
      simp only [List.mem_cons] at hr
      constructor
      · intro h
        rcases hr.1 (.inr h) with rfl | h'
        · exact absurd (mem_labels (d := r.1) (x := r.2) h) hn.1
        · exact h'
      · intro h
        rcases hr.2 (.inr h) with rfl | h'
        · exact absurd (hl.2 ▸ mem_labels (d := r.1) (x := r.2) h) hn.1
        · exact h'

/-! ### merging -/

theorem labels_nb (a l : Dims) : labels (Dims.nb a l) = (labels l).filter (fun d => !contains a d) := by
  unfold Dims.nb labels
  rw [List.filter_map]
  rfl

theorem contains_labels {a a' : Dims} (h : labels a = labels a') (d : Dim) : contains a d = contains a' d := by
  rw [Bool.eq_iff_iff, contains_iff, contains_iff, h]

theorem labels_takeWhile (l : Dims) (d : Dim) : labels (l.takeWhile (fun q => q.1 != d)) = (labels l).takeWhile (· != d) := by
  unfold labels; rw [List.takeWhile_map]; rfl

theorem labels_dropWhile (l : Dims) (d : Dim) : labels (l.dropWhile (fun q => q.1 != d)) = (labels l).dropWhile (· != d) := by
  unfold labels; rw [List.dropWhile_map]; rfl

theorem labels_mergePure {a a' b b' : Dims} (ha : labels a = labels a') (hb : labels b = labels b') : ∀ {as as' it it' : Dims},
    labels as = labels as' → labels it = labels it' → labels (Dims.mergePure a b as it) = labels (Dims.mergePure a' b' as' it') := by
  have hnb : ∀ l l' : Dims, labels l = labels l' → labels (Dims.nb a l) = labels (Dims.nb a' l') := by
    intro l l' h
    rw [labels_nb, labels_nb, h]
    congr 1
    funext d
    rw [contains_labels ha]
  intro as
  induction as with
  | nil =>
    intro as' it it' h1 h2
    cases as' with
    | nil => exact hnb _ _ h2
    | cons q as' => simp at h1
  | cons p as ih =>
    intro as' it it' h1 h2
    cases as' with
    | nil => simp at h1
    | cons q as' =>
      simp only [labels_cons, List.cons.injEq] at h1
      simp only [Dims.mergePure, contains_labels hb, h1.1]
      split
      · rw [labels_append, labels_append, labels_cons, labels_cons, h1.1]
        congr 1
        · exact hnb _ _ (by rw [labels_takeWhile, labels_takeWhile, h2])
        · congr 1
          exact ih h1.2 (by rw [labels_dropWhile, labels_dropWhile, h2])
      · rw [labels_cons, labels_cons, h1.1]
        congr 1
        exact ih h1.2 h2

/-- Good dims. -/
def GoodDims (s : Dims) : Prop := Sizes.WF s ∧ Dim.invalid ∉ labels s

theorem merge_pure {a b m : Dims} (ha : GoodDims a) (hb : GoodDims b) (h : Dims.merge a b = .ok m) : m = Dims.mergePure a b a b ∧ GoodDims m := by
  have hc := Dims.merge_ok_cons a b m ha.1.1 hb.1.1 h
  have he := Dims.merge_eq a b ha.1 hb.1 ha.2 hb.2 hc
  rw [h] at he
  refine ⟨Except.ok.inj he, Dims.merge_WF h, ?_⟩
  intro hi
  obtain ⟨n, hn⟩ := at?_ok_of_mem_labels hi
  rcases (C02_merge_content a b m ha.1 hb.1 ha.2 hb.2 h _ _).1 (at?_ok_mem hn) with h' | h'
  · exact ha.2 (mem_labels h')
  · exact hb.2 (mem_labels h')

theorem mergeAll_labels {ds ds' : List Dims} : ∀ {a a' m m' : Dims}, GoodDims a → GoodDims a' → (∀ d ∈ ds, GoodDims d) → (∀ d ∈ ds', GoodDims d) →
    labels a = labels a' → ds.map labels = ds'.map labels → mergeAll a ds = .ok m → mergeAll a' ds' = .ok m' → labels m = labels m' := by
  induction ds generalizing ds' with
  | nil =>
    intro a a' m m' _ _ _ _ hl hd h h'
    cases ds' with
    | nil => cases h; cases h'; exact hl
    | cons _ _ => simp at hd
  | cons b ds ih =>
    intro a a' m m' ga ga' gd gd' hl hd h h'
    cases ds' with
    | nil => simp at hd
    | cons b' ds' =>
      simp only [List.map_cons, List.cons.injEq] at hd
      simp only [mergeAll, List.foldlM_cons, bind, Except.bind] at h h'
      cases h1 : Dims.merge a b with
      | error e => rw [h1] at h; cases h
      | ok o =>
      cases h2 : Dims.merge a' b' with
      | error e => rw [h2] at h'; cases h'
      | ok o' =>
      rw [h1] at h
      rw [h2] at h'
      obtain ⟨e1, g1⟩ := merge_pure ga (gd b List.mem_cons_self) h1
      obtain ⟨e2, g2⟩ := merge_pure ga' (gd' b' List.mem_cons_self) h2
      exact ih g1 g2 (fun d hd => gd d (List.mem_cons_of_mem _ hd)) (fun d hd => gd' d (List.mem_cons_of_mem _ hd))
        (by rw [e1, e2]; exact labels_mergePure hl hd.1 hl hd.1) hd.2 h h'

/-! ### folds with a commutative operation -/

/-- The fold of a family. -/
def foldOver (op : V → V → V) (init : V) {α : Type} (l : List α) (f : α → V) : V := l.foldl (fun acc j => op acc (f j)) init

section
variable {op : V → V → V} {init : V} {α β : Type}

theorem foldOver_map (l : List V) : foldOver op init l id = l.foldl op init := rfl

theorem foldOver_acc (h : CommMonoidOp op init) (f : α → V) (l : List α) : ∀ acc, l.foldl (fun acc j => op acc (f j)) acc = op acc (foldOver op init l f) := by
  induction l with
  | nil => intro acc; exact (h.neutral acc).symm
  | cons a l ih =>
    intro acc
    unfold foldOver
    rw [List.foldl_cons, List.foldl_cons, ih, ih (op init (f a)), h.comm init (f a), h.neutral, h.assoc]

theorem foldOver_cons (h : CommMonoidOp op init) (f : α → V) (a : α) (l : List α) : foldOver op init (a :: l) f = op (f a) (foldOver op init l f) := by
  unfold foldOver
  rw [List.foldl_cons, foldOver_acc h, h.comm init (f a), h.neutral]; rfl

theorem foldOver_append (h : CommMonoidOp op init) (f : α → V) (l l' : List α) :
    foldOver op init (l ++ l') f = op (foldOver op init l f) (foldOver op init l' f) := by
  conv_lhs => unfold foldOver
  rw [List.foldl_append, foldOver_acc h]; rfl

theorem foldOver_add (h : CommMonoidOp op init) (f g : α → V) (l : List α) :
    foldOver op init l (fun j => op (f j) (g j)) = op (foldOver op init l f) (foldOver op init l g) := by
  induction l with
  | nil => exact (h.neutral init).symm
  | cons a l ih =>
    rw [foldOver_cons h, foldOver_cons h, foldOver_cons h, ih]
    have : ∀ p q r s : V, op (op p q) (op r s) = op (op p r) (op q s) := by
      intro p q r s
      rw [h.assoc, h.assoc, ← h.assoc q, ← h.assoc r, h.comm q r]
    exact this _ _ _ _

theorem foldOver_const (h : CommMonoidOp op init) (l : List α) : foldOver op init l (fun _ => init) = init := by
  induction l with
  | nil => rfl
  | cons a l ih => rw [foldOver_cons h, ih, h.neutral]

theorem foldOver_swap (h : CommMonoidOp op init) (g : α → β → V) (l : List α) (l' : List β) :
    foldOver op init l (fun i => foldOver op init l' (fun j => g i j)) = foldOver op init l' (fun j => foldOver op init l (fun i => g i j)) := by
  induction l with
  | nil => exact (foldOver_const h l').symm
  | cons a l ih =>
    rw [foldOver_cons h, ih, ← foldOver_add h]
    congr 1
    funext j
    rw [foldOver_cons h]

theorem foldOver_congr {l : List α} {f g : α → V} (h : ∀ a ∈ l, f a = g a) : foldOver op init l f = foldOver op init l g := by
  unfold foldOver
  induction l generalizing init with
  | nil => rfl
  | cons a l ih =>
    rw [List.foldl_cons, List.foldl_cons, h a List.mem_cons_self]
    exact ih fun b hb => h b (List.mem_cons_of_mem _ hb)
end

end Scipp
