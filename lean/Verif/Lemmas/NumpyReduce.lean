import Verif.Spec.NumpyReduce
import Verif.Lemmas.Masks3
import Verif.Lemmas.DropDim
import Mathlib.Data.List.Nodup
namespace Scipp.NpRed
open Sizes
variable {V W U : Type}

theorem intRange_nodup (n : Int) : (intRange 0 n).Nodup := by
  unfold intRange
  exact List.Nodup.map (fun a b h => by simpa using h) List.nodup_range

theorem mem_intRange {n i : Int} : i ∈ intRange 0 n ↔ 0 ≤ i ∧ i < n := by
  simp only [intRange, List.mem_map, List.mem_range]
  constructor
  · rintro ⟨j, h, rfl⟩; omega
  · rintro ⟨h1, h2⟩; exact ⟨i.toNat, by omega, by omega⟩

theorem flatMap_single {α β : Type} [DecidableEq α] (L : List β) (a : α) : ∀ (l : List α), l.Nodup → a ∈ l →
    l.flatMap (fun i => if i = a then L else []) = L
  | [], _, h => by simp at h
  | x :: xs, hn, h => by
    rw [List.flatMap_cons]
    rw [List.nodup_cons] at hn
    by_cases e : x = a
    · subst e
      rw [if_pos rfl]
      have : xs.flatMap (fun i => if i = x then L else []) = [] := by
        rw [List.flatMap_eq_nil_iff]
        intro y hy
        rw [if_neg (by rintro rfl; exact hn.1 hy)]
      rw [this, List.append_nil]
    · rw [if_neg e, List.nil_append]
      refine flatMap_single L a xs hn.2 ?_
      rcases List.mem_cons.1 h with h | h
      · exact absurd h.symm e
      · exact h

/-- Coordinates given by indices. -/
def assign : Dims → List Int → (Dim → Int) → Dim → Int
  | (d, _) :: s, i :: is, c => assign s is (upd c d i)
  | _, _, c => c

theorem assign_notMem : ∀ (s : Dims) (is : List Int) (c : Dim → Int) (d : Dim), d ∉ labels s → assign s is c d = c d
  | [], _, _, _, _ => by simp [assign]
  | (e, _) :: s, [], _, _, _ => by simp [assign]
  | (e, _) :: s, i :: is, c, d, h => by
    simp only [labels_cons, List.mem_cons, not_or] at h
    rw [assign, assign_notMem s is _ d h.2, upd, if_neg h.1]

theorem assign_eq : ∀ (s : Dims) (is : List Int) (c : Dim → Int), (labels s).Nodup → is.length = s.length → ∀ d ∈ labels s,
    assign s is c d = is.getD ((labels s).idxOf d) 0
  | [], _, _, _, _, _, h => by simp [labels] at h
  | (e, n) :: s, [], _, _, hl, _, _ => by simp at hl
  | (e, n) :: s, i :: is, c, hn, hl, d, h => by
    simp only [labels_cons, List.nodup_cons] at hn
    simp only [labels_cons] at h ⊢
    rw [assign]
    by_cases hd : e = d
    · subst hd
      rw [assign_notMem _ _ _ _ hn.1, upd, if_pos rfl]
      simp
    · rw [assign_eq s is _ hn.2 (by simpa using hl) d (by
        rcases List.mem_cons.1 h with h | h
        · exact absurd h.symm hd
        · exact h)]
      rw [List.idxOf_cons_ne _ hd]
      simp

theorem indices_length : ∀ (sh : List Int), ∀ is ∈ indices sh, is.length = sh.length
  | [], is, h => by simp [indices] at h; simp [h]
  | n :: ns, is, h => by
    simp only [indices, List.mem_flatMap, List.mem_map] at h
    obtain ⟨i, -, t, ht, rfl⟩ := h
    simp [indices_length ns t ht]

theorem upd_self (c : Dim → Int) (d : Dim) : upd c d (c d) = c := by
  funext e; unfold upd; split
  · rename_i h; rw [h]
  · rfl

theorem outDims_cons (d : Dim) (ls red : List Dim) : outDims (d :: ls) red = if d ∈ red then outDims ls red else d :: outDims ls red := by
  unfold outDims
  by_cases h : d ∈ red <;> simp [h]

theorem redDims_cons (p : Dim × Int) (s : Dims) (red : List Dim) : redDims (p :: s) red = if p.1 ∈ red then p :: redDims s red else redDims s red := by
  unfold redDims
  by_cases h : p.1 ∈ red <;> simp [h]

theorem keptDims_cons (p : Dim × Int) (s : Dims) (red : List Dim) : keptDims (p :: s) red = if p.1 ∈ red then keptDims s red else p :: keptDims s red := by
  unfold keptDims
  by_cases h : p.1 ∈ red <;> simp [h]

theorem filter_indices {β : Type} (n : Int) (ns : List Int) (P : List Int → Bool) (g : List Int → β) :
    ((indices (n :: ns)).filter P).map g = (intRange 0 n).flatMap (fun i => ((indices ns).filter (fun is => P (i :: is))).map (fun is => g (i :: is))) := by
  simp only [indices, List.filter_flatMap, List.map_flatMap, List.filter_map, List.map_map]
  rfl

/-- The elements whose remaining indices are given are those over the reduced dims. -/
theorem group_eq (axis : List Nat) (red : List Dim) : ∀ (s : Dims) (k : Nat) (c : Dim → Int), (labels s).Nodup →
    (∀ i (h : i < s.length), (k + i ∈ axis ↔ s[i].1 ∈ red)) → InDims (keptDims s red) c →
    ((indices (shape s)).filter (fun is => decide (keep axis k is = (outDims (labels s) red).map c))).map (fun is => assign s is c) =
      over (redDims s red) c
  | [], k, c, _, _, _ => by simp [indices, shape, labels, outDims, keep, assign, redDims, over]
  | (d, n) :: s, k, c, hn, ha, hc => by
    simp only [labels_cons, List.nodup_cons] at hn
    have h0 := ha 0 (by simp)
    simp only [Nat.add_zero, List.getElem_cons_zero] at h0
    have hs : ∀ i (h : i < s.length), (k + 1 + i ∈ axis ↔ s[i].1 ∈ red) := by
      intro i h
      have := ha (i + 1) (by simp; omega)
      simp only [List.getElem_cons_succ] at this
      rw [← this, Nat.add_assoc, Nat.add_comm 1 i]
    have hsh : shape ((d, n) :: s) = n :: shape s := rfl
    rw [hsh, filter_indices, labels_cons, outDims_cons, redDims_cons]
    rw [keptDims_cons] at hc
    by_cases hd : d ∈ red
    · rw [if_pos hd, if_pos hd, over]
      rw [if_pos hd] at hc
      have hm : ∀ i, (outDims (labels s) red).map c = (outDims (labels s) red).map (upd c d i) := by
        intro i
        refine List.map_congr_left (fun e he => ?_)
        unfold upd
        rw [if_neg]
        rintro rfl
        exact hn.1 (List.mem_filter.1 he).1
      have hc' : ∀ i, InDims (keptDims s red) (upd c d i) := by
        intro i e m he
        unfold upd
        rw [if_neg]
        · exact hc e m he
        · rintro rfl
          exact hn.1 (mem_labels (List.mem_filter.1 he).1)
      congr 1
      funext i
      rw [← group_eq axis red s (k + 1) (upd c d i) hn.2 hs (hc' i), ← hm i]
      simp only [keep, if_pos (h0.2 hd), assign]
    · rw [if_neg hd, if_neg hd]
      rw [if_neg hd] at hc
      have hc1 := hc d n (by simp)
      have hc' : InDims (keptDims s red) c := fun e m he => hc e m (List.mem_cons_of_mem _ he)
      have key := group_eq axis red s (k + 1) c hn.2 hs hc'
      rw [← flatMap_single (over (redDims s red) c) (c d) (intRange 0 n) (intRange_nodup n) (mem_intRange.2 hc1)]
      congr 1
      funext i
      have hk : ∀ is, keep axis k (i :: is) = i :: keep axis (k + 1) is := by
        intro is
        rw [keep, if_neg (fun h => hd (h0.1 h))]
      by_cases hi : i = c d
      · subst hi
        rw [if_pos rfl, ← key]
        simp only [hk, List.map_cons, List.cons.injEq, true_and, assign, upd_self]
      · rw [if_neg hi]
        simp [hk, hi]

theorem dimsToAxis_ok {ls : List Dim} : ∀ {ds : List Dim} {ax : List Nat}, dimsToAxis ls ds = .ok ax ↔ (∀ d ∈ ds, d ∈ ls) ∧ ax = ds.map (fun d => ls.idxOf d)
  | [], ax => by simp [dimsToAxis, eq_comm]
  | d :: ds, ax => by
    rw [dimsToAxis, dimIndex]
    by_cases h : d ∈ ls
    · simp only [if_pos h]
      cases hr : dimsToAxis ls ds with
      | error e =>
        simp only [reduceCtorEq, false_iff, not_and]
        intro hall
        have := (dimsToAxis_ok (ls := ls) (ds := ds) (ax := ds.map (fun d => ls.idxOf d))).2 ⟨fun e he => hall e (List.mem_cons_of_mem _ he), rfl⟩
        rw [hr] at this; cases this
      | ok is =>
        obtain ⟨h1, h2⟩ := dimsToAxis_ok.1 hr
        subst h2
        simp only [Except.ok.injEq]
        constructor
        · rintro rfl; exact ⟨by simpa [h] using h1, rfl⟩
        · rintro ⟨-, rfl⟩; rfl
    · simp only [if_neg h]
      simp only [reduceCtorEq, false_iff, not_and]
      intro hall; exact absurd (hall d (by simp)) h

theorem dimsToAxis_error {ls : List Dim} : ∀ {ds : List Dim} {e : Err}, dimsToAxis ls ds = .error e → e = .dimension
  | [], e, h => by simp [dimsToAxis] at h
  | d :: ds, e, h => by
    rw [dimsToAxis, dimIndex] at h
    by_cases hd : d ∈ ls
    · simp only [if_pos hd] at h
      cases hr : dimsToAxis ls ds with
      | error e' => rw [hr] at h; cases h; exact dimsToAxis_error hr
      | ok is => rw [hr] at h; cases h
    · simp only [if_neg hd] at h; cases h; rfl

/-- The positions of the reduced dims. -/
theorem axis_mem {s : Dims} (hn : (labels s).Nodup) {red : List Dim} (hr : ∀ d ∈ red, d ∈ labels s) :
    ∀ i (h : i < s.length), (0 + i ∈ red.map (fun d => (labels s).idxOf d) ↔ s[i].1 ∈ red) := by
  intro i h
  have hl : i < (labels s).length := by simpa using h
  have e : (labels s)[i] = s[i].1 := by simp [labels]
  rw [Nat.zero_add, List.mem_map]
  constructor
  · rintro ⟨d, hd, hi⟩
    rw [← e]
    have hlt := List.idxOf_lt_length_iff.2 (hr d hd)
    have : (labels s)[(labels s).idxOf d] = d := List.getElem_idxOf hlt
    subst hi
    rw [this]; exact hd
  · intro hd
    refine ⟨_, hd, ?_⟩
    rw [← e]
    exact hn.idxOf_getElem i hl

theorem axis_nodup {s : Dims} {red : List Dim} (hr : ∀ d ∈ red, d ∈ labels s) :
    (red.map (fun d => (labels s).idxOf d)).Nodup ↔ red.Nodup := by
  refine ⟨List.Nodup.of_map _, fun h => List.Nodup.map_on (fun x hx y hy e => ?_) h⟩
  exact (List.idxOf_inj (hr x hx)).1 e

theorem keep_shape (axis : List Nat) (red : List Dim) : ∀ (s : Dims) (k : Nat), (∀ i (h : i < s.length), (k + i ∈ axis ↔ s[i].1 ∈ red)) →
    keep axis k (shape s) = shape (keptDims s red)
  | [], k, _ => by simp [keep, shape, keptDims]
  | (d, n) :: s, k, ha => by
    have h0 := ha 0 (by simp)
    simp only [Nat.add_zero, List.getElem_cons_zero] at h0
    have hs : ∀ i (h : i < s.length), (k + 1 + i ∈ axis ↔ s[i].1 ∈ red) := by
      intro i h
      have := ha (i + 1) (by simp; omega)
      simp only [List.getElem_cons_succ] at this
      rw [← this, Nat.add_assoc, Nat.add_comm 1 i]
    have hsh : shape ((d, n) :: s) = n :: shape s := rfl
    rw [hsh, keep, keptDims_cons, keep_shape axis red s (k + 1) hs]
    by_cases hd : d ∈ red
    · rw [if_pos (h0.2 hd), if_pos hd]
    · rw [if_neg (fun h => hd (h0.1 h)), if_neg hd]; rfl

theorem labels_kept (s : Dims) (red : List Dim) : labels (keptDims s red) = outDims (labels s) red := by
  unfold labels keptDims outDims
  rw [List.filter_map]; rfl

theorem kept_wf {s : Dims} (h : WF s) (red : List Dim) : WF (keptDims s red) := sublist_WF List.filter_sublist h

theorem kept_valid {s : Dims} (h : Dim.invalid ∉ labels s) (red : List Dim) : Dim.invalid ∉ labels (keptDims s red) := by
  rw [labels_kept]
  exact fun hc => h (List.mem_filter.1 hc).1

theorem ofLabels_eq {s : Dims} (h : WF s) (hi : Dim.invalid ∉ labels s) : Dims.ofLabels (labels s) (shape s) = .ok s := by
  unfold Dims.ofLabels
  rw [if_neg (by simp [shape]), zip_labels_shape]
  have := Dims.foldlM_addInner_eq s [] (by simpa using h.1) h.2 hi
  simpa using this

theorem values_get {a : Arr V} (ha : a.Ok) {is : List Int} (h : is.length = a.dims.length) (c : Dim → Int) :
    (values a).get is = a.val (assign a.dims is c) := by
  refine ha.own _ _ (fun d hd => ?_)
  rw [assign_eq a.dims is c ha.wf.1 h d hd]

/-- A reduction with NumPy followed by making a variable of the result. -/
theorem array_reduce {a : Arr V} (ha : a.Ok) {red : List Dim} (hr : ValidDims a.dims red) {X : Type} (g : NpArr X) (hg : g.shape = shape a.dims)
    (f : List X → W) :
    ∃ vals, npReduce (red.map (fun d => (labels a.dims).idxOf d)) f g = .ok vals ∧
      array (outDims (labels a.dims) red) vals = .ok ⟨keptDims a.dims red, fun c => vals.get ((outDims (labels a.dims) red).map c)⟩ ∧
      ∀ (h : (Dim → Int) → X), (∀ is c, is.length = a.dims.length → g.get is = h (assign a.dims is c)) → ∀ c, InDims (keptDims a.dims red) c →
        vals.get ((outDims (labels a.dims) red).map c) = f ((over (redDims a.dims red) c).map h) := by
  have hm := axis_mem ha.wf.1 hr.2
  unfold npReduce
  rw [if_pos ((axis_nodup hr.2).2 hr.1)]
  refine ⟨_, rfl, ?_, fun h hh c hc => ?_⟩
  · unfold array
    simp only [hg]
    rw [keep_shape _ red a.dims 0 hm, ← labels_kept, ofLabels_eq (kept_wf ha.wf red) (kept_valid ha.valid red)]
  · simp only [hg]
    rw [← group_eq _ red a.dims 0 c ha.wf.1 hm hc, List.map_map]
    refine congrArg f (List.map_congr_left (fun is his => ?_))
    have hl := indices_length _ is (List.mem_filter.1 his).1
    exact hh is c (by simpa [shape] using hl)

theorem npReduce_dup {axis : List Nat} (h : ¬ axis.Nodup) (f : List V → W) (a : NpArr V) : npReduce axis f a = .error .invalidArgument := by
  unfold npReduce; rw [if_neg h]


theorem depends_iff {red : List Dim} {d : Dims} : dependsOn red d = decide (Depends d red) := by
  rw [Bool.eq_iff_iff, decide_eq_true_eq]
  unfold dependsOn Depends
  rw [List.any_eq_true]
  constructor
  · rintro ⟨x, h1, h2⟩; exact ⟨x, by simpa using h2, h1⟩
  · rintro ⟨x, h1, h2⟩; exact ⟨x, h2, by simpa using h1⟩

/-- A mask that can be used: boolean, with dims of the data. -/
def Good (D : Dims) (m : MaskVar) : Prop := m.arr.Ok ∧ m.Plain ∧ ∀ q ∈ m.arr.dims, q ∈ D

theorem orAll_ok {D : Dims} (hD : WF D) {red : List Dim} : ∀ (l : List MaskVar) (m : MaskVar), Good D m → (∀ x ∈ l, Good D x) → Depends m.arr.dims red →
    ∃ r, orAll m l = .ok r ∧ Good D r ∧ Depends r.arr.dims red ∧ ∀ c, r.arr.val c = (m.arr.val c || l.any (fun x => x.arr.val c))
  | [], m, hm, _, hd => ⟨m, rfl, hm, hd, by simp⟩
  | x :: l, m, hm, hl, hd => by
    have hx := hl x (by simp)
    obtain ⟨u, hu⟩ := (or_exists hm.1 hx.1).2 ⟨hm.2.1, hx.2.1, by
      intro d y z hy hz
      exact compatible_of_subset hD (fun p hp => hp) d y z (hm.2.2 _ hy) (hx.2.2 _ hz)⟩
    obtain ⟨r1, r2, r3, r4, _, _⟩ := or_ok hm.1 hx.1 hu
    have hg : Good D u := ⟨r1, r2, fun p hp => by
      rcases (r3 p).1 hp with h | h
      · exact hm.2.2 p h
      · exact hx.2.2 p h⟩
    have hdu : Depends u.arr.dims red := by
      obtain ⟨d, h1, h2⟩ := hd
      obtain ⟨n, hn⟩ := at?_ok_of_mem_labels h2
      exact ⟨d, h1, mem_labels ((r3 _).2 (.inl (at?_ok_mem hn)))⟩
    obtain ⟨r, e, h1, h2, h3⟩ := orAll_ok hD l u hg (fun y hy => hl y (List.mem_cons_of_mem _ hy)) hdu
    refine ⟨r, by rw [orAll, hu]; exact e, h1, h2, fun c => ?_⟩
    rw [h3, r4]
    simp [Bool.or_assoc]

theorem transposedLike_ok {D : Dims} (hD : WF D) {m : MaskVar} (hm : Good D m) (hne : m.arr.dims ≠ []) :
    ∃ r, transposedLike D m = .ok r ∧ (∀ q ∈ r.arr.dims, q ∈ D) ∧ WF r.arr.dims ∧ r.arr.val = m.arr.val := by
  have e : (labels D).filter (fun d => decide (d ∈ labels m.arr.dims)) = labels (D.filter (fun p => contains m.arr.dims p.1)) := by
    unfold labels
    rw [List.filter_map]
    congr 1
    refine List.filter_congr (fun p _ => ?_)
    rw [Bool.eq_iff_iff]
    simp only [Function.comp, decide_eq_true_eq]
    exact contains_iff.symm
  unfold transposedLike Arr.transpose
  rw [e, transpose_common hm.1.wf hm.1.valid hD hm.2.2 hne]
  exact ⟨_, rfl, fun q hq => (List.mem_filter.1 hq).1, sublist_WF List.filter_sublist hD, rfl⟩

/-- The union of the masks that depend on a reduced dim. -/
theorem irreducible_ok {D : Dims} (hD : WF D) {masks : List (Dim × MaskVar)} (hm : ∀ p ∈ masks, Good D p.2) (red : List Dim) :
    ∃ r, irreducibleMask D masks red = .ok r ∧ (r = none ↔ ∀ p ∈ masks, ¬ Depends p.2.arr.dims red) ∧
      ∀ m, r = some m → (∀ q ∈ m.arr.dims, q ∈ D) ∧ WF m.arr.dims ∧ ∀ c, m.arr.val c = maskedAt masks red c := by
  have hf : ∀ c, maskedAt masks red c = ((masks.map Prod.snd).filter (fun m => dependsOn red m.arr.dims)).any (fun m => m.arr.val c) := by
    intro c
    rw [List.any_filter, List.any_map]
    simp only [depends_iff]
    rfl
  have hg : ∀ m ∈ (masks.map Prod.snd).filter (fun m => dependsOn red m.arr.dims), Good D m ∧ Depends m.arr.dims red := by
    intro m h
    rw [List.mem_filter, depends_iff] at h
    obtain ⟨p, hp, rfl⟩ := List.mem_map.1 h.1
    exact ⟨hm p hp, by simpa using h.2⟩
  have hnil : (masks.map Prod.snd).filter (fun m => dependsOn red m.arr.dims) = [] ↔ ∀ p ∈ masks, ¬ Depends p.2.arr.dims red := by
    rw [List.filter_eq_nil_iff]
    simp only [List.mem_map, depends_iff, decide_eq_true_eq]
    exact ⟨fun h p hp => h _ ⟨p, hp, rfl⟩, fun h m hm => by
      obtain ⟨p, hp, rfl⟩ := hm; exact h p hp⟩
  have hne : ∀ m : MaskVar, Depends m.arr.dims red → m.arr.dims ≠ [] := by
    rintro m ⟨d, -, h⟩ e
    rw [e] at h; simp [labels] at h
  unfold irreducibleMask
  cases hl : (masks.map Prod.snd).filter (fun m => dependsOn red m.arr.dims) with
  | nil => exact ⟨none, rfl, by simpa [hl] using hnil, by simp⟩
  | cons m ms =>
    rw [hl] at hg hf hnil
    have hno : ¬ ∀ p ∈ masks, ¬ Depends p.2.arr.dims red := fun h => by have := hnil.2 h; cases this
    have hm0 := hg m (by simp)
    cases ms with
    | nil =>
      obtain ⟨r, e, h1, h2, h3⟩ := transposedLike_ok hD hm0.1 (hne m hm0.2)
      refine ⟨some r.copy, by simp [e], by simpa using hno, ?_⟩
      rintro m' ⟨⟩
      refine ⟨h1, h2, fun c => ?_⟩
      rw [hf]
      simp [MaskVar.copy, h3]
    | cons m2 ms =>
      obtain ⟨u, eu, g1, g2, g3⟩ := orAll_ok hD (m2 :: ms) m hm0.1 (fun x hx => (hg x (List.mem_cons_of_mem _ hx)).1) hm0.2
      obtain ⟨r, e, h1, h2, h3⟩ := transposedLike_ok hD g1 (hne u g2)
      refine ⟨some r, by simp [eu, e], by simpa using hno, ?_⟩
      rintro m' ⟨⟩
      refine ⟨h1, h2, fun c => ?_⟩
      rw [hf, h3, g3]
      simp

/-- What depends on none of the reduced dims fits the result. -/
theorem fits_kept {D d : Dims} {red : List Dim} (hf : Fits D d) (hn : ¬ Depends d red) : Fits (keptDims D red) d := by
  obtain ⟨e, h1, h2⟩ := hf
  have hk : ∀ x n, (x, n) ∈ d → x ∉ red := fun x n hx hr => hn ⟨x, hr, mem_labels hx⟩
  refine ⟨e, fun x n hx hxe => ?_, fun n hx => ?_⟩
  · exact List.mem_filter.2 ⟨h1 x n hx hxe, by simpa using hk x n hx⟩
  · have he := hk e n hx
    rcases h2 n hx with h | ⟨m, h, h'⟩ | ⟨h, h'⟩
    · exact .inl (List.mem_filter.2 ⟨h, by simpa using he⟩)
    · exact .inr (.inl ⟨m, List.mem_filter.2 ⟨h, by simpa using he⟩, h'⟩)
    · refine .inr (.inr ⟨fun hc => h ?_, h'⟩)
      rw [labels_kept] at hc
      exact (List.mem_filter.1 hc).1

theorem fits_of_sub {D d : Dims} (h : ∀ q ∈ d, q ∈ D) : Fits D d :=
  ⟨Dim.invalid, fun x n hx _ => h _ hx, fun n hx => .inl (h _ hx)⟩

theorem setMasks {s : Sizes} (hs : WF s) : ∀ (l acc : List (Dim × MaskVar)), (∀ p ∈ l, WF p.2.arr.dims ∧ Fits s p.2.arr.dims) →
    ((acc ++ l).map Prod.fst).Nodup → l.foldlM (fun d p => MaskDict.set d p.1 p.2) (⟨s, acc, false⟩ : MaskDict) = .ok ⟨s, acc ++ l, false⟩
  | [], acc, _, _ => by simp [pure, Except.pure]
  | p :: l, acc, h, hn => by
    rw [List.foldlM_cons]
    have hp := h p (by simp)
    have hnew : p.1 ∉ acc.map Prod.fst := by
      simp only [List.map_append, List.map_cons, List.nodup_append, List.mem_cons] at hn
      intro hc
      exact hn.2.2 _ hc _ (.inl rfl) rfl
    have hi : insertEntry acc p.1 p.2 = acc ++ [p] := by
      clear h hn
      induction acc with
      | nil => rfl
      | cons q acc ih =>
        simp only [List.map_cons, List.mem_cons, not_or] at hnew
        obtain ⟨k, x⟩ := q
        rw [insertEntry, if_neg (fun e => hnew.1 e.symm), ih hnew.2]; rfl
    have : MaskDict.set ⟨s, acc, false⟩ p.1 p.2 = .ok ⟨s, acc ++ [p], false⟩ := by
      rw [setMask_iff hs hp.1]
      exact ⟨rfl, hp.2, by rw [hi]⟩
    simp only [this, bind, Except.bind]
    have ih := setMasks hs l (acc ++ [p]) (fun q hq => h q (List.mem_cons_of_mem _ hq)) (by simpa using hn)
    simpa using ih

end Scipp.NpRed
