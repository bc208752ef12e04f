import Verif.Spec.GroupArray
import Verif.Lemmas.Masks3
import Verif.Lemmas.GroupBy
/-!
Lemmas about reductions of grouped arrays.
-/
namespace Scipp.GroupArray
open Scipp.Sizes Scipp.Props
variable {V W : Type}

/-- Dims after slicing. -/
def rangeDims (s : Dims) (dim : Dim) (k : Int) : Dims := s.map (fun p => if p.1 = dim then (p.1, k) else p)

theorem labels_rangeDims (s : Dims) (dim : Dim) (k : Int) : labels (rangeDims s dim k) = labels s := by
  unfold rangeDims labels
  rw [List.map_map]
  refine List.map_congr_left (fun p _ => ?_)
  simp only [Function.comp]
  split <;> rfl

theorem mem_rangeDims {s : Dims} {dim : Dim} {k : Int} {q : Dim × Int} :
    q ∈ rangeDims s dim k ↔ (q.1 = dim ∧ q.2 = k ∧ dim ∈ labels s) ∨ (q.1 ≠ dim ∧ q ∈ s) := by
  unfold rangeDims
  simp only [List.mem_map]
  constructor
  · rintro ⟨p, hp, rfl⟩
    by_cases h : p.1 = dim
    · rw [if_pos h]; exact .inl ⟨h, rfl, h ▸ mem_labels (x := p.2) hp⟩
    · rw [if_neg h]; exact .inr ⟨h, hp⟩
  · rintro (⟨h1, h2, h3⟩ | ⟨h1, h2⟩)
    · obtain ⟨p, hp, he⟩ := List.mem_map.1 h3
      exact ⟨p, hp, by rw [if_pos he]; exact Prod.ext (he.trans h1.symm) h2.symm⟩
    · exact ⟨q, h2, by rw [if_neg h1]⟩

theorem upd_upd (c : Dim → Int) (d : Dim) (x y : Int) : upd (upd c d x) d y = upd c d y := by
  funext e; unfold upd; split <;> rfl

theorem upd_self (c : Dim → Int) (d : Dim) (x : Int) : upd c d x d = x := by simp [upd]

theorem range_eq {a : Arr V} (ha : a.Ok) {dim : Dim} {n : Int} (hd : (dim, n) ∈ a.dims) {r : Int × Int}
    (hr : 0 ≤ r.1 ∧ r.1 ≤ r.2 ∧ r.2 ≤ n) :
    range a dim r = .ok ⟨rangeDims a.dims dim (r.2 - r.1), fun c => a.val (upd c dim (r.1 + c dim))⟩ ∧
    (⟨rangeDims a.dims dim (r.2 - r.1), fun c => a.val (upd c dim (r.1 + c dim))⟩ : Arr V).Ok := by
  refine ⟨by unfold range; rw [at?_of_mem ha.wf.1 hd]; simp only [if_pos hr]; rfl, ⟨?_, ?_⟩, ?_, ?_⟩
  · simp only [labels_rangeDims]; exact ha.wf.1
  · intro p hp
    rcases mem_rangeDims.1 hp with ⟨_, h2, _⟩ | ⟨_, h2⟩
    · rw [h2]; omega
    · exact ha.wf.2 p h2
  · simp only [labels_rangeDims]; exact ha.valid
  · intro c c' h
    simp only [labels_rangeDims] at h
    refine ha.own _ _ (fun d hd' => ?_)
    unfold upd
    split
    · rw [h dim (mem_labels hd)]
    · exact h d hd'

/-- The slice with masked elements replaced. -/
theorem maskedSlice_eq {kind : Kind} (hk : (kind.boolData && kind.zeroNotBool) = false) (fill : V) {a : MaskedArr V} (ha : a.Ok)
    {dim : Dim} {n : Int} (hd : (dim, n) ∈ a.data.dims) {u : Option MaskVar}
    (hu1 : ∀ m, u = some m → m.arr.Ok ∧ m.Plain ∧ (∀ q ∈ m.arr.dims, q ∈ a.data.dims) ∧ dim ∈ labels m.arr.dims)
    (hu2 : ∀ c, maskedBy u c = maskedAlong a.masks dim c) {r : Int × Int} (hr : 0 ≤ r.1 ∧ r.1 ≤ r.2 ∧ r.2 ≤ n) :
    ∃ x, maskedSlice kind fill u a.data dim r = .ok x ∧ x.Ok ∧ (dim, r.2 - r.1) ∈ x.dims ∧
      (∀ q ∈ a.data.dims, q.1 ≠ dim → q ∈ x.dims) ∧
      ∀ c, x.val c = if maskedAlong a.masks dim (upd c dim (r.1 + c dim)) then fill else a.data.val (upd c dim (r.1 + c dim)) := by
  obtain ⟨e1, o1⟩ := range_eq ha.data hd hr
  cases u with
  | none =>
    refine ⟨_, e1, o1, mem_rangeDims.2 (.inl ⟨rfl, rfl, mem_labels hd⟩), fun q hq hn => mem_rangeDims.2 (.inr ⟨hn, hq⟩), fun c => ?_⟩
    have := hu2 (upd c dim (r.1 + c dim))
    simp only [maskedBy] at this
    simp [← this]
  | some m =>
    obtain ⟨m1, m2, m3, m4⟩ := hu1 m rfl
    have hmd : (dim, n) ∈ m.arr.dims := by
      obtain ⟨x, hx⟩ := at?_ok_of_mem_labels m4
      have hx := at?_ok_mem hx
      rwa [compatible_of_subset ha.data.wf (fun q hq => hq) dim x n (m3 _ hx) hd] at hx
    obtain ⟨e2, o2⟩ := range_eq m1 hmd hr
    simp only [maskedSlice, e1, e2, hk, Bool.false_eq_true, if_false]
    unfold whereMask
    rw [if_neg (by simp [m2.bool]), if_neg (by simp [m2.unit])]
    obtain ⟨x, hx⟩ := (zip_exists (f := fun (b : Bool) (v : V) => if b then fill else v) o2 o1).2 (by
      intro d x y hx hy
      refine compatible_of_subset o1.wf (fun q hq => hq) d x y ?_ hy
      rcases mem_rangeDims.1 hx with ⟨h1, h2, h3⟩ | ⟨h1, h2⟩
      · exact mem_rangeDims.2 (.inl ⟨h1, h2, mem_labels hd⟩)
      · exact mem_rangeDims.2 (.inr ⟨h1, m3 _ h2⟩))
    obtain ⟨x1, x2, x3⟩ := zip_ok o2 o1 hx
    refine ⟨x, hx, x1, (x2 _).2 (.inr (mem_rangeDims.2 (.inl ⟨rfl, rfl, mem_labels hd⟩))),
      fun q hq hn => (x2 _).2 (.inr (mem_rangeDims.2 (.inr ⟨hn, hq⟩))), fun c => ?_⟩
    rw [x3]
    have := hu2 (upd c dim (r.1 + c dim))
    simp only [maskedBy] at this
    simp only [this]

theorem foldl_shift {β : Type} (f : β → Int → β) (b e : Int) (z : β) :
    (intRange 0 (e - b)).foldl (fun w j => f w (b + j)) z = (intRange b e).foldl f z := by
  rw [← List.foldl_map (f := fun j => b + j) (g := f)]
  refine congrArg (fun l => List.foldl f z l) ?_
  unfold intRange
  rw [List.map_map, Int.sub_zero]
  refine List.map_congr_left (fun j _ => ?_)
  simp only [Function.comp]; omega

/-- All slices of a group. -/
theorem reduceGroup_eq {kind : Kind} (hk : (kind.boolData && kind.zeroNotBool) = false) (op : W → V → W) (fill : V) {a : MaskedArr V}
    (ha : a.Ok) {dim : Dim} {n : Int} (hd : (dim, n) ∈ a.data.dims) {u : Option MaskVar}
    (hu1 : ∀ m, u = some m → m.arr.Ok ∧ m.Plain ∧ (∀ q ∈ m.arr.dims, q ∈ a.data.dims) ∧ dim ∈ labels m.arr.dims)
    (hu2 : ∀ c, maskedBy u c = maskedAlong a.masks dim c) : ∀ (ranges : List (Int × Int)) (acc : Arr W),
    (∀ r ∈ ranges, 0 ≤ r.1 ∧ r.1 ≤ r.2 ∧ r.2 ≤ n) → acc.dims = a.data.dims.filter (fun p => decide (p.1 ≠ dim)) →
    ∃ s, reduceGroup kind op fill u a.data dim acc ranges = .ok s ∧ s.dims = acc.dims ∧
      ∀ c, s.val c = (GroupBy.positions ranges).foldl (fun w j => op w
        (if maskedAlong a.masks dim (upd c dim j) then fill else a.data.val (upd c dim j))) (acc.val c)
  | [], acc, _, _ => ⟨acc, rfl, rfl, fun c => rfl⟩
  | r :: rs, acc, hr, hacc => by
    obtain ⟨x, e, xo, xd, xi, xv⟩ := maskedSlice_eq hk fill ha hd hu1 hu2 (hr r (by simp))
    have hinc : includes x.dims acc.dims = true := by
      have haw : (labels acc.dims).Nodup := by rw [hacc]; exact (sublist_WF List.filter_sublist ha.data.wf).1
      refine (includes_iff xo.wf.1 haw).2 (fun q hq => ?_)
      rw [hacc] at hq
      simp only [List.mem_filter, decide_eq_true_eq] at hq
      exact xi _ hq.1 hq.2
    have ea : accumulate op acc x dim = .ok ⟨acc.dims,
        fun c => (intRange 0 (r.2 - r.1)).foldl (fun w j => op w (x.val (upd c dim j))) (acc.val c)⟩ := by
      unfold accumulate
      rw [at?_of_mem xo.wf.1 xd]
      simp only [hinc, if_true]
    obtain ⟨s, es, ds, vs⟩ := reduceGroup_eq hk op fill ha hd hu1 hu2 rs ⟨acc.dims,
        fun c => (intRange 0 (r.2 - r.1)).foldl (fun w j => op w (x.val (upd c dim j))) (acc.val c)⟩
        (fun q hq => hr q (List.mem_cons_of_mem _ hq)) hacc
    refine ⟨s, ?_, ds, fun c => ?_⟩
    · unfold reduceGroup at es ⊢
      rw [List.foldlM_cons]
      simp only [e, ea]
      exact es
    · rw [vs c, GroupBy.positions_cons, List.foldl_append]
      refine congrArg (fun z => List.foldl _ z _) ?_
      simp only [xv, upd_upd, upd_self]
      exact foldl_shift (fun w j => op w (if maskedAlong a.masks dim (upd c dim j) then fill else a.data.val (upd c dim j))) r.1 r.2 _

theorem mapM_ok_of {α β : Type} (f : α → Except Err β) (P : α → β → Prop) : ∀ (l : List α), (∀ x ∈ l, ∃ y, f x = .ok y ∧ P x y) →
    ∃ ys, l.mapM f = .ok ys ∧ List.Forall₂ P l ys
  | [], _ => ⟨[], rfl, .nil⟩
  | x :: l, h => by
    obtain ⟨y, e, p⟩ := h x (by simp)
    obtain ⟨ys, es, ps⟩ := mapM_ok_of f P l (fun z hz => h z (List.mem_cons_of_mem _ hz))
    exact ⟨y :: ys, by rw [List.mapM_cons, e]; simp only [bind, Except.bind, es, pure, Except.pure], .cons p ps⟩

/-- Every step succeeds or fails with the same error, and one fails. -/
theorem mapM_error_of {α β : Type} (f : α → Except Err β) (e : Err) : ∀ (l : List α), (∀ x ∈ l, (∃ y, f x = .ok y) ∨ f x = .error e) →
    (∃ x ∈ l, f x = .error e) → l.mapM f = .error e
  | [], _, h => by obtain ⟨x, hx, _⟩ := h; cases hx
  | x :: l, h1, h2 => by
    rw [List.mapM_cons]
    rcases h1 x (by simp) with ⟨y, hy⟩ | hx
    · have : l.mapM f = .error e := mapM_error_of f e l (fun z hz => h1 z (List.mem_cons_of_mem _ hz)) (by
        obtain ⟨z, hz, hze⟩ := h2
        rcases List.mem_cons.1 hz with rfl | hz
        · rw [hy] at hze; cases hze
        · exact ⟨z, hz, hze⟩)
      rw [hy]; simp only [bind, Except.bind, this]
    · rw [hx]; rfl

/-- There is a union of masks if there is a mask depending on the dim. -/
theorem irreducible_some {dim : Dim} : ∀ (l : List (Dim × MaskVar)) (u : Option MaskVar) {r : Option MaskVar},
    l.foldlM (irreducibleStep dim) u = .ok r → (∃ p ∈ l, dim ∈ labels p.2.arr.dims) → ∃ m, r = some m := by
  have keep : ∀ (l : List (Dim × MaskVar)) (m : MaskVar) {r : Option MaskVar},
      l.foldlM (irreducibleStep dim) (some m) = .ok r → ∃ m', r = some m' := by
    intro l
    induction l with
    | nil => intro m r h; cases h; exact ⟨m, rfl⟩
    | cons q l ih =>
      intro m r h
      rw [List.foldlM_cons] at h
      simp only [irreducibleStep, bind, Except.bind] at h
      split at h
      · cases h
      · rename_i u' hu'
        split at hu'
        · split at hu'
          · cases hu'
          · cases hu'; exact ih _ h
        · cases hu'; exact ih _ h
  intro l
  induction l with
  | nil => intro u r _ h; obtain ⟨p, hp, _⟩ := h; cases hp
  | cons q l ih =>
    intro u r h hp
    cases u with
    | some m => exact keep _ m h
    | none =>
      rw [List.foldlM_cons] at h
      by_cases hc : contains q.2.arr.dims dim = true
      · simp only [irreducibleStep, hc, if_true, bind, Except.bind] at h
        exact keep l _ h
      · simp only [irreducibleStep, hc, if_false, bind, Except.bind] at h
        refine ih none h ?_
        obtain ⟨p, hp, hd⟩ := hp
        rcases List.mem_cons.1 hp with rfl | hp
        · exact absurd (contains_iff.2 hd) hc
        · exact ⟨p, hp, hd⟩

/-- The union depends on `dim` only if all masks do. -/
theorem irreducible_labels {D : Dims} (hD : WF D) {dim : Dim} : ∀ (l : List (Dim × MaskVar)) (u : Option MaskVar),
    (∀ p ∈ l, p.2.arr.Ok ∧ p.2.Plain ∧ ∀ q ∈ p.2.arr.dims, q ∈ D) →
    (∀ m, u = some m → m.arr.Ok ∧ m.Plain ∧ (∀ q ∈ m.arr.dims, q ∈ D)) → ∀ {r : Option MaskVar},
    l.foldlM (irreducibleStep dim) u = .ok r →
    (∀ p ∈ l, dim ∈ labels p.2.arr.dims → ∀ d ∈ labels p.2.arr.dims, d = dim) →
    (∀ m, u = some m → ∀ d ∈ labels m.arr.dims, d = dim) → ∀ m, r = some m → ∀ d ∈ labels m.arr.dims, d = dim
  | [], u, _, _, r, h, _, hu => by cases h; exact hu
  | q :: l, u, hok, huk, r, h, hl, hu => by
    rw [List.foldlM_cons] at h
    have hq := hok q (by simp)
    have hl' : ∀ p ∈ l, dim ∈ labels p.2.arr.dims → ∀ d ∈ labels p.2.arr.dims, d = dim :=
      fun p hp => hl p (List.mem_cons_of_mem _ hp)
    have hok' : ∀ p ∈ l, p.2.arr.Ok ∧ p.2.Plain ∧ ∀ q ∈ p.2.arr.dims, q ∈ D := fun p hp => hok p (List.mem_cons_of_mem _ hp)
    simp only [bind, Except.bind] at h
    have step : ∃ u', irreducibleStep dim u q = .ok u' ∧
        (∀ m, u' = some m → m.arr.Ok ∧ m.Plain ∧ (∀ q ∈ m.arr.dims, q ∈ D)) ∧
        (∀ m, u' = some m → ∀ d ∈ labels m.arr.dims, d = dim) := by
      by_cases hc : contains q.2.arr.dims dim = true
      · cases u with
        | none =>
          refine ⟨some q.2.copy, by simp [irreducibleStep, hc], fun m hm => ?_, fun m hm => ?_⟩
          · cases hm; exact ⟨hq.1, ⟨hq.2.1.bool, hq.2.1.unit⟩, hq.2.2⟩
          · cases hm; exact hl q (by simp) (contains_iff.1 hc)
        | some m =>
          obtain ⟨m1, m2, m3⟩ := huk m rfl
          obtain ⟨w, hw⟩ := (or_exists m1 hq.1).2 ⟨m2, hq.2.1, by
            intro d x y hx hy
            exact compatible_of_subset hD (fun p hp => hp) d x y (m3 _ hx) (hq.2.2 _ hy)⟩
          obtain ⟨r1, r2, r3, r4, _, _⟩ := or_ok m1 hq.1 hw
          refine ⟨some w, by simp [irreducibleStep, hc, hw], fun m' hm' => ?_, fun m' hm' d hd => ?_⟩
          · cases hm'
            exact ⟨r1, r2, fun p hp => ((r3 p).1 hp).elim (m3 p) (hq.2.2 p)⟩
          · cases hm'
            obtain ⟨x, hx⟩ := at?_ok_of_mem_labels hd
            rcases (r3 _).1 (at?_ok_mem hx) with h | h
            · exact hu m rfl d (mem_labels h)
            · exact hl q (by simp) (contains_iff.1 hc) d (mem_labels h)
      · exact ⟨u, by simp [irreducibleStep, hc], huk, hu⟩
    obtain ⟨u', e, h1, h2⟩ := step
    rw [e] at h
    exact irreducible_labels hD l u' hok' h1 h hl' h2

/-- The union depends on every dim of the masks. -/
theorem irreducible_other {D : Dims} (hD : WF D) {dim : Dim} : ∀ (l : List (Dim × MaskVar)) (u : Option MaskVar),
    (∀ p ∈ l, p.2.arr.Ok ∧ p.2.Plain ∧ ∀ q ∈ p.2.arr.dims, q ∈ D) →
    (∀ m, u = some m → m.arr.Ok ∧ m.Plain ∧ (∀ q ∈ m.arr.dims, q ∈ D) ∧ dim ∈ labels m.arr.dims) → ∀ {r : Option MaskVar},
    l.foldlM (irreducibleStep dim) u = .ok r →
    ((∃ p ∈ l, dim ∈ labels p.2.arr.dims ∧ ∃ d ∈ labels p.2.arr.dims, d ≠ dim) ∨ (∃ m, u = some m ∧ ∃ d ∈ labels m.arr.dims, d ≠ dim)) →
    ∃ m, r = some m ∧ ∃ d ∈ labels m.arr.dims, d ≠ dim
  | [], u, _, _, r, h, hp => by
    cases h
    rcases hp with ⟨p, hp, _⟩ | hp
    · cases hp
    · exact hp
  | q :: l, u, hl, hu, r, h, hp => by
    rw [List.foldlM_cons] at h
    have hq := hl q (by simp)
    have hl' : ∀ p ∈ l, p.2.arr.Ok ∧ p.2.Plain ∧ ∀ q ∈ p.2.arr.dims, q ∈ D := fun p hp => hl p (List.mem_cons_of_mem _ hp)
    simp only [bind, Except.bind] at h
    have step : ∃ u', irreducibleStep dim u q = .ok u' ∧
        (∀ m, u' = some m → m.arr.Ok ∧ m.Plain ∧ (∀ q ∈ m.arr.dims, q ∈ D) ∧ dim ∈ labels m.arr.dims) ∧
        ((∃ p ∈ l, dim ∈ labels p.2.arr.dims ∧ ∃ d ∈ labels p.2.arr.dims, d ≠ dim) ∨
          (∃ m, u' = some m ∧ ∃ d ∈ labels m.arr.dims, d ≠ dim)) := by
      by_cases hc : contains q.2.arr.dims dim = true
      · cases u with
        | none =>
          refine ⟨some q.2.copy, by simp [irreducibleStep, hc], fun m hm => ?_, ?_⟩
          · cases hm; exact ⟨hq.1, ⟨hq.2.1.bool, hq.2.1.unit⟩, hq.2.2, contains_iff.1 hc⟩
          · rcases hp with ⟨p, hp, h1, h2⟩ | ⟨m, hm, _⟩
            · rcases List.mem_cons.1 hp with rfl | hp
              · exact .inr ⟨_, rfl, h2⟩
              · exact .inl ⟨p, hp, h1, h2⟩
            · cases hm
        | some m =>
          obtain ⟨m1, m2, m3, m4⟩ := hu m rfl
          obtain ⟨w, hw⟩ := (or_exists m1 hq.1).2 ⟨m2, hq.2.1, by
            intro d x y hx hy
            exact compatible_of_subset hD (fun p hp => hp) d x y (m3 _ hx) (hq.2.2 _ hy)⟩
          obtain ⟨r1, r2, r3, r4, _, _⟩ := or_ok m1 hq.1 hw
          have hin : ∀ d, d ∈ labels m.arr.dims ∨ d ∈ labels q.2.arr.dims → d ∈ labels w.arr.dims := by
            rintro d (hd | hd)
            · obtain ⟨x, hx⟩ := at?_ok_of_mem_labels hd
              exact mem_labels ((r3 _).2 (.inl (at?_ok_mem hx)))
            · obtain ⟨x, hx⟩ := at?_ok_of_mem_labels hd
              exact mem_labels ((r3 _).2 (.inr (at?_ok_mem hx)))
          refine ⟨some w, by simp [irreducibleStep, hc, hw], fun m' hm' => ?_, ?_⟩
          · cases hm'
            exact ⟨r1, r2, fun p hp => ((r3 p).1 hp).elim (m3 p) (hq.2.2 p), hin dim (.inl m4)⟩
          · rcases hp with ⟨p, hp, h1, d, h2, h3⟩ | ⟨m', hm', d, h2, h3⟩
            · rcases List.mem_cons.1 hp with rfl | hp
              · exact .inr ⟨w, rfl, d, hin d (.inr h2), h3⟩
              · exact .inl ⟨p, hp, h1, d, h2, h3⟩
            · cases hm'; exact .inr ⟨w, rfl, d, hin d (.inl h2), h3⟩
      · refine ⟨u, by simp [irreducibleStep, hc], hu, ?_⟩
        rcases hp with ⟨p, hp, h1, h2⟩ | hp
        · rcases List.mem_cons.1 hp with rfl | hp
          · exact absurd (contains_iff.2 h1) hc
          · exact .inl ⟨p, hp, h1, h2⟩
        · exact .inr hp
    obtain ⟨u', e, h1, h2⟩ := step
    rw [e] at h
    exact irreducible_other hD l u' hl' h1 h h2

theorem foldl_countMasked {ι : Type} (masked : ι → Bool) : ∀ (l : List ι) (k : Int),
    l.foldl (fun (acc : Int) j => acc + (if masked j then 1 else 0)) k = k + l.length - (l.filter (fun j => !masked j)).length
  | [], k => by simp
  | j :: l, k => by
    rw [List.foldl_cons, foldl_countMasked masked l]
    by_cases h : masked j = true
    · simp [h]; omega
    · simp [h]; omega

theorem intRange_length (b e : Int) : (intRange b e).length = (e - b).toNat := by simp [intRange]

/-- The number of unmasked positions. -/
theorem scale_eq {a : MaskedArr V} (ha : a.Ok) {dim : Dim} {n : Int} (hd : (dim, n) ∈ a.data.dims) {u : Option MaskVar}
    (hu1 : ∀ m, u = some m → m.arr.Ok ∧ m.Plain ∧ (∀ q ∈ m.arr.dims, q ∈ a.data.dims) ∧ dim ∈ labels m.arr.dims)
    (hu2 : ∀ c, maskedBy u c = maskedAlong a.masks dim c) (hone : ∀ m, u = some m → ∀ d ∈ labels m.arr.dims, d = dim) :
    ∀ (ranges : List (Int × Int)), (∀ r ∈ ranges, 0 ≤ r.1 ∧ r.1 ≤ r.2 ∧ r.2 ≤ n) → ∀ k : Int,
    ∃ s, ranges.foldlM (scaleStep u dim) k = .ok s ∧
      ∀ c, s = k + ((unmaskedAt a dim (GroupBy.positions ranges) c).length : Int)
  | [], _, k => ⟨k, rfl, fun c => by simp [unmaskedAt, GroupBy.positions]⟩
  | r :: rs, hr, k => by
    have hr0 := hr r (by simp)
    have step : ∃ s, scaleStep u dim k r = .ok s ∧ ∀ c, s = k + ((unmaskedAt a dim (intRange r.1 r.2) c).length : Int) := by
      cases u with
      | none =>
        refine ⟨_, rfl, fun c => ?_⟩
        have hf : ∀ c, maskedAlong a.masks dim c = false := fun c => (hu2 c).symm
        simp only [unmaskedAt, hf, List.length_map, Bool.not_false, List.filter_true, intRange_length]
        omega
      | some m =>
        obtain ⟨m1, m2, m3, m4⟩ := hu1 m rfl
        have hmd : (dim, n) ∈ m.arr.dims := by
          obtain ⟨x, hx⟩ := at?_ok_of_mem_labels m4
          have hx := at?_ok_mem hx
          rwa [compatible_of_subset ha.data.wf (fun q hq => hq) dim x n (m3 _ hx) hd] at hx
        obtain ⟨e1, o1⟩ := range_eq m1 hmd hr0
        have hmem : (dim, r.2 - r.1) ∈ rangeDims m.arr.dims dim (r.2 - r.1) := mem_rangeDims.2 (.inl ⟨rfl, rfl, m4⟩)
        have hnil : (rangeDims m.arr.dims dim (r.2 - r.1)).filter (fun p => decide (p.1 ≠ dim)) = [] := by
          refine List.filter_eq_nil_iff.2 (fun p hp => ?_)
          have : p.1 ∈ labels m.arr.dims := by rw [← labels_rangeDims m.arr.dims dim (r.2 - r.1)]; exact mem_labels (x := p.2) hp
          simpa using hone m rfl p.1 this
        simp only [scaleStep, e1, reduceDim_eq _ _ o1 hmem, hnil, if_true]
        refine ⟨_, rfl, fun c => ?_⟩
        have hval : ∀ j, m.arr.val (upd (fun _ => 0) dim j) = maskedAlong a.masks dim (upd c dim j) := by
          intro j
          rw [← hu2 (upd c dim j)]
          refine m1.own _ _ (fun d hd' => ?_)
          rw [hone m rfl d hd', upd_self, upd_self]
        simp only [upd_upd, upd_self, hval]
        rw [foldl_shift (fun (w : Int) j => w + (if maskedAlong a.masks dim (upd c dim j) then 1 else 0)) r.1 r.2 0,
          foldl_countMasked (fun j => maskedAlong a.masks dim (upd c dim j))]
        simp only [unmaskedAt, List.length_map, intRange_length]
        omega
    obtain ⟨s1, e1, v1⟩ := step
    obtain ⟨s, e, v⟩ := scale_eq ha hd hu1 hu2 hone rs (fun q hq => hr q (List.mem_cons_of_mem _ hq)) s1
    refine ⟨s, by rw [List.foldlM_cons, e1]; exact e, fun c => ?_⟩
    rw [v c, v1 c, GroupBy.positions_cons]
    simp only [unmaskedAt, List.filter_append, List.map_append, List.length_append]
    push_cast; omega

theorem forall₂_at {α β : Type} {P : α → β → Prop} : ∀ {l : List α} {ys : List β}, List.Forall₂ P l ys → ∀ (g : Nat) (x : α),
    l[g]? = some x → ∃ y, ys[g]? = some y ∧ P x y
  | _, _, .nil, g, x, h => by simp at h
  | _, _, .cons p ps, 0, x, h => by simp at h; subst h; exact ⟨_, by simp, p⟩
  | _, _, .cons p ps, g + 1, x, h => by
    simp only [List.getElem?_cons_succ] at h ⊢
    exact forall₂_at ps g x h

/-- The reduction before skipping the masked elements. -/
theorem groupReduce_eq {kind : Kind} (hk : (kind.boolData && kind.zeroNotBool) = false) (op : W → V → W) (init : W) (fill : V)
    {a : MaskedArr V} (ha : a.Ok) {dim key : Dim} {n : Int} (hd : (dim, n) ∈ a.data.dims) (hkey : KeyOk a dim key)
    {groups : List (List (Int × Int))} (hg : GroupsOk n groups) :
    ∃ out, groupReduce kind op init fill a dim key groups = .ok out ∧
      out.data.dims = a.data.dims.map (fun p => if p.1 = dim then (key, (groups.length : Int)) else p) ∧
      out.masks = independentMasks a.masks dim ∧
      ∀ (c : Dim → Int) (g : Nat) (ranges : List (Int × Int)), groups[g]? = some ranges → c key = g →
        out.data.val c = (GroupBy.positions ranges).foldl (fun w j => op w
          (if maskedAlong a.masks dim (upd c dim j) then fill else a.data.val (upd c dim j))) init := by
  obtain ⟨u, hu, hu1, hu2⟩ := irreducible_loop ha.data.wf (dim := dim) a.masks none ha.masks (by simp)
  have hu2' : ∀ c, maskedBy u c = maskedAlong a.masks dim c := fun c => by rw [hu2 c]; simp [maskedBy]
  obtain ⟨slices, es, fs⟩ := mapM_ok_of
    (reduceGroup kind op fill u a.data dim ⟨a.data.dims.filter (fun p => decide (p.1 ≠ dim)), fun _ => init⟩)
    (fun ranges s => ∀ c, s.val c = (GroupBy.positions ranges).foldl (fun w j => op w
        (if maskedAlong a.masks dim (upd c dim j) then fill else a.data.val (upd c dim j))) init) groups (fun ranges hr => by
      obtain ⟨s, e, _, v⟩ := reduceGroup_eq hk op fill ha hd hu1 hu2' ranges
        ⟨a.data.dims.filter (fun p => decide (p.1 ≠ dim)), fun _ => init⟩ (hg ranges hr) rfl
      exact ⟨s, e, v⟩)
  unfold groupReduce
  have hc : contains a.data.dims dim = true := contains_iff.2 (mem_labels hd)
  have hk' : ¬ (key ≠ dim ∧ contains a.data.dims key = true) := by
    rintro ⟨h1, h2⟩
    rcases hkey with h | h
    · exact h1 h
    · exact h (contains_iff.1 h2)
  have hirr : irreducibleMask a.masks dim = .ok u := hu
  simp only [hc, Bool.not_true, Bool.false_eq_true, if_false, if_neg hk', hirr, es]
  refine ⟨_, rfl, rfl, rfl, fun c g ranges hgr hcg => ?_⟩
  obtain ⟨s, hs, hv⟩ := forall₂_at fs g ranges hgr
  simp only [hcg, Int.toNat_natCast, hs]
  exact hv c

/-! ### ranges of the groups -/

theorem mapM_mem {α β : Type} (f : α → Except Err β) : ∀ (l : List α) (ys : List β), l.mapM f = .ok ys → ∀ y ∈ ys, ∃ x ∈ l, f x = .ok y
  | [], ys, h, y, hy => by cases h; cases hy
  | x :: l, ys, h, y, hy => by
    rw [List.mapM_cons] at h
    simp only [bind, Except.bind] at h
    split at h
    · cases h
    · rename_i z hz
      split at h
      · cases h
      · rename_i zs hzs
        cases h
        rcases List.mem_cons.1 hy with rfl | hy
        · exact ⟨x, by simp, hz⟩
        · obtain ⟨w, hw, e⟩ := mapM_mem f l zs hzs y hy
          exact ⟨w, by simp [hw], e⟩

variable {α : Type} [LinearOrder α]

theorem emplace_ranges (hash : GroupBy.Key α → Nat) (k : GroupBy.Key α) (r : Int × Int) : ∀ (m : GroupBy.GroupMap α),
    ∀ e ∈ GroupBy.GroupMap.emplace hash k r m, ∀ x ∈ e.2, x = r ∨ ∃ e' ∈ m, x ∈ e'.2
  | [], e, he, x, hx => by
    simp only [GroupBy.GroupMap.emplace, List.mem_singleton] at he
    subst he; simp at hx; exact .inl hx
  | e' :: m, e, he, x, hx => by
    simp only [GroupBy.GroupMap.emplace] at he
    split at he
    · rcases List.mem_cons.1 he with rfl | he
      · simp only [List.mem_append, List.mem_singleton] at hx
        exact hx.elim (fun h => .inr ⟨e', by simp, h⟩) .inl
      · exact .inr ⟨e, by simp [he], hx⟩
    · rcases List.mem_cons.1 he with rfl | he
      · exact .inr ⟨e, by simp, hx⟩
      · rcases emplace_ranges hash k r m e he x hx with h | ⟨e'', h1, h2⟩
        · exact .inl h
        · exact .inr ⟨e'', by simp [h1], h2⟩

theorem emplaced_ranges (hash : GroupBy.Key α → Nat) : ∀ (l : List (GroupBy.Key α × (Int × Int))) (m : GroupBy.GroupMap α),
    (∀ e ∈ m, ∀ x ∈ e.2, ∃ p ∈ l, p.2 = x) → ∀ e ∈ l.foldl (fun m p => GroupBy.GroupMap.emplace hash p.1 p.2 m) m, ∀ x ∈ e.2,
      ∃ p ∈ l, p.2 = x := by
  have key : ∀ (l : List (GroupBy.Key α × (Int × Int))) (m : GroupBy.GroupMap α) (S : Int × Int → Prop), (∀ e ∈ m, ∀ x ∈ e.2, S x) →
      (∀ p ∈ l, S p.2) → ∀ e ∈ l.foldl (fun m p => GroupBy.GroupMap.emplace hash p.1 p.2 m) m, ∀ x ∈ e.2, S x := by
    intro l
    induction l with
    | nil => intro m S hm _; exact hm
    | cons q l ih =>
      intro m S hm hl
      refine ih _ S (fun e he x hx => ?_) (fun p hp => hl p (List.mem_cons_of_mem _ hp))
      rcases emplace_ranges hash q.1 q.2 m e he x hx with h | ⟨e', h1, h2⟩
      · rw [h]; exact hl q (by simp)
      · exact hm e' h1 x h2
  intro l m hm
  exact key l m (fun x => ∃ p ∈ l, p.2 = x) hm (fun p hp => ⟨p, hp, rfl⟩)

theorem runsFrom_range : ∀ (vs : List (GroupBy.Key α)) (b i : Int) (value : GroupBy.Key α), 0 ≤ b → b ≤ i →
    ∀ p ∈ GroupBy.runsFrom b value i vs, 0 ≤ p.2.1 ∧ p.2.1 ≤ p.2.2 ∧ p.2.2 ≤ i + vs.length
  | [], b, i, value, h0, hb, p, hp => by
    simp only [GroupBy.runsFrom, List.mem_singleton] at hp
    subst hp; simp [h0, hb]
  | v :: vs, b, i, value, h0, hb, p, hp => by
    simp only [GroupBy.runsFrom] at hp
    rw [List.length_cons]
    split at hp
    · have := runsFrom_range vs b (i + 1) value h0 (by omega) p hp
      push_cast; omega
    · rcases List.mem_cons.1 hp with rfl | hp
      · simp only; push_cast; omega
      · have := runsFrom_range vs i (i + 1) v (by omega) (by omega) p hp
        push_cast; omega

theorem runs_range (values : List (GroupBy.Key α)) : ∀ p ∈ GroupBy.runs values, 0 ≤ p.2.1 ∧ p.2.1 ≤ p.2.2 ∧ p.2.2 ≤ (values.length : Int) := by
  cases values with
  | nil => intro p hp; cases hp
  | cons v vs =>
    intro p hp
    have := runsFrom_range vs 0 1 v (by omega) (by omega) p hp
    rw [List.length_cons]; push_cast; omega

theorem startRun_begin {edges : List α} {v : Option α} {i : Int} {r : GroupBy.Run α} (h : GroupBy.startRun edges v i = some r) :
    r.begin = i := by
  unfold GroupBy.startRun at h
  simp only at h
  split at h
  · split at h
    · cases h; rfl
    · cases h
  · cases h

theorem binRuns_range (edges : List α) : ∀ (vs : List (Option α)) (st : Option (GroupBy.Run α)) (i : Int), 0 ≤ i →
    (∀ r, st = some r → 0 ≤ r.begin ∧ r.begin ≤ i) →
    ∀ p ∈ GroupBy.binRuns edges st i vs, 0 ≤ p.2.1 ∧ p.2.1 ≤ p.2.2 ∧ p.2.2 ≤ i + vs.length
  | [], none, i, _, _, p, hp => by cases hp
  | [], some r, i, h0, hst, p, hp => by
    simp only [GroupBy.binRuns, List.mem_singleton] at hp
    subst hp; have := hst r rfl; simp [this.1, this.2]
  | v :: vs, none, i, h0, _, p, hp => by
    simp only [GroupBy.binRuns] at hp
    have := binRuns_range edges vs _ (i + 1) (by omega) (fun r hr => by rw [startRun_begin hr]; omega) p hp
    rw [List.length_cons]; push_cast; omega
  | v :: vs, some r, i, h0, hst, p, hp => by
    have hr := hst r rfl
    simp only [GroupBy.binRuns] at hp
    rw [List.length_cons]
    split at hp
    · have := binRuns_range edges vs (some r) (i + 1) (by omega) (fun r' hr' => by cases hr'; omega) p hp
      push_cast; omega
    · rcases List.mem_cons.1 hp with rfl | hp
      · simp only; push_cast; omega
      · have := binRuns_range edges vs _ (i + 1) (by omega) (fun r hr => by rw [startRun_begin hr]; omega) p hp
        push_cast; omega

end Scipp.GroupArray
