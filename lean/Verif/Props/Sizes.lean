import Verif.Lemmas.Sizes
/-!
# Properties of dimension containers: C01, C02

Specification vocabulary used in the statements: `labels` (the list of labels),
membership `(d, n) ∈ s` ("dimension `d` has extent `n`"), `List.Nodup`,
`List.Sublist` ("appears in this order").
-/
namespace Scipp.Props
open Scipp Sizes

/-- Everything that can be built with the public operations: any history,
including histories in which a binary operation combines two previously built
objects. Operations that throw do not produce a new object. -/
inductive Reachable : Dims → Prop
  | empty : Reachable []
  | ofLabels {ls sh s} : Dims.ofLabels ls sh = .ok s → Reachable s
  | add {s d x s'} : Reachable s → Dims.add s d x = .ok s' → Reachable s'
  | addInner {s d x s'} : Reachable s → Dims.addInner s d x = .ok s' → Reachable s'
  | set {s d x s'} : Reachable s → Sizes.set s d x = .ok s' → Reachable s'
  | resize {s d x s'} : Reachable s → Sizes.resize s d x = .ok s' → Reachable s'
  | erase {s d s'} : Reachable s → Sizes.erase s d = .ok s' → Reachable s'
  | rename {s ns b s'} : Reachable s → Sizes.renameDims s ns b = .ok s' → Reachable s'
  | slice {s p s'} : Reachable s → Sizes.slice s p = .ok s' → Reachable s'
  | mergeSizes {a b s'} : Reachable a → Reachable b → Sizes.mergeSizes a b = .ok s' → Reachable s'
  | concat {ss d s'} : (∀ s ∈ ss, Reachable s) → Sizes.concat ss d = .ok s' → Reachable s'
  | merge {a b s'} : Reachable a → Reachable b → Dims.merge a b = .ok s' → Reachable s'
  | intersection {a b s'} : Reachable a → Reachable b → Dims.intersection a b = .ok s' → Reachable s'
  | transpose {s ls s'} : Reachable s → Dims.transpose s ls = .ok s' → Reachable s'
  | fold {s d t s'} : Reachable s → Reachable t → Dims.fold s d t = .ok s' → Reachable s'

/-- **C01**: in every reachable dimension container no label occurs twice and no
extent is negative. -/
theorem C01_unique_labels_nonneg_extents {s : Dims} (h : Reachable s) :
    (labels s).Nodup ∧ ∀ d n, (d, n) ∈ s → 0 ≤ n := by
  suffices WF s from ⟨this.1, fun d n hm => this.2 _ hm⟩
  induction h with
  | empty => exact WF.nil
  | ofLabels h => exact Dims.ofLabels_WF h
  | add _ h ih => exact Dims.add_WF h ih
  | addInner _ h ih => exact Dims.addInner_WF h ih
  | set _ h ih => exact set_WF h ih
  | resize _ h ih => exact resize_WF h ih
  | erase _ h ih => exact erase_WF h ih
  | rename _ h ih => exact renameDims_WF h ih
  | slice _ h ih => exact slice_WF h ih
  | mergeSizes _ _ h ih _ => exact mergeSizes_WF h ih
  | concat _ h ih => exact concat_WF h ih
  | merge _ _ h _ _ => exact Dims.merge_WF h
  | intersection _ _ h _ _ => exact Dims.intersection_WF h
  | transpose _ h _ => exact Dims.transpose_WF h
  | fold _ _ h _ _ => exact Dims.fold_WF h

/-- A reachable three-dimensional object: built, renamed, merged, sliced. -/
example : Reachable [(5, 2), (3, 4), (7, 6)] := by
  have h1 : Reachable [(5, 2), (3, 9)] := .ofLabels (ls := [5, 3]) (sh := [2, 9]) rfl
  have h2 : Reachable [(5, 2), (3, 4)] := .slice (p := ⟨3, 1, 9, 2⟩) h1 rfl
  have h3 : Reachable [(3, 4), (7, 6)] := .ofLabels (ls := [3, 7]) (sh := [4, 6]) rfl
  exact .merge h2 h3 rfl

/-- **C02** (success condition): merging two valid sets of dimensions succeeds
exactly if every shared label has the same extent in both. -/
theorem C02_merge_succeeds_iff (a b : Dims) (ha : WF a) (hb : WF b)
    (hai : Dim.invalid ∉ labels a) (hbi : Dim.invalid ∉ labels b) :
    (∃ m, Dims.merge a b = .ok m) ↔ ∀ d x y, (d, x) ∈ a → (d, y) ∈ b → x = y :=
  ⟨fun ⟨m, h⟩ => Dims.merge_ok_cons a b m ha.1 hb.1 h,
   fun h => ⟨_, Dims.merge_eq a b ha hb hai hbi h⟩⟩

example := C02_merge_succeeds_iff [(3, 2), (4, 3)] [(5, 7), (4, 3), (6, 1)] (by simp [WF, labels]) (by simp [WF, labels])
  (by decide) (by decide)

/-- **C02** (failure): otherwise the error is a `DimensionError`. -/
theorem C02_merge_error (a b : Dims) (e : Err) (h : Dims.merge a b = .error e) :
    e = .dimension := by
  have hat : ∀ {s : Sizes} {d e}, at? s d = .error e → e = .dimension := by
    intro s d e
    induction s with
    | nil => simp [at?]; exact fun h => h.symm
    | cons p s ih => simp only [at?]; split <;> simp_all
  have hai : ∀ {s : Dims} {d x e}, Dims.addInner s d x = .error e → e = .dimension := by
    intro s d x e h
    simp only [Dims.addInner] at h
    split at h
    · injection h with h; exact h.symm
    split at h
    · injection h with h; exact h.symm
    simp only [insertRight] at h
    split at h
    · injection h with h; exact h.symm
    · simp at h
  have hadv : ∀ (d : Dim) (it : List Dim) (out : Dims) (e : Err),
      Dims.mergeAdvance a b d it out = .error e → e = .dimension := by
    intro d it
    induction it with
    | nil => intro out e h; simp [Dims.mergeAdvance] at h
    | cons i it ih =>
      intro out e h
      simp only [Dims.mergeAdvance, bind, Except.bind] at h
      split at h
      · simp at h
      split at h
      · exact ih _ _ h
      split at h
      · rename_i he; injection h with h; exact h ▸ hat he
      split at h
      · rename_i he; injection h with h; exact h ▸ hai he
      · exact ih _ _ h
  have hrest : ∀ (it : List Dim) (out : Dims) (e : Err),
      Dims.mergeRest a b it out = .error e → e = .dimension := by
    intro it
    induction it with
    | nil => intro out e h; simp [Dims.mergeRest] at h
    | cons i it ih =>
      intro out e h
      simp only [Dims.mergeRest, bind, Except.bind] at h
      split at h
      · exact ih _ _ h
      split at h
      · rename_i he; injection h with h; exact h ▸ hat he
      split at h
      · rename_i he; injection h with h; exact h ▸ hai he
      · exact ih _ _ h
  have hloop : ∀ (ds it : List Dim) (out : Dims) (e : Err),
      Dims.mergeLoop a b ds it out = .error e → e = .dimension := by
    intro ds
    induction ds with
    | nil => intro it out e h; simp [Dims.mergeLoop] at h
    | cons i ds ih =>
      intro it out e h
      simp only [Dims.mergeLoop, bind, Except.bind] at h
      split at h
      · rename_i he; injection h with h; exact h ▸ hat he
      split at h
      · split at h
        · rename_i he; injection h with h; exact h ▸ hat he
        split at h
        · injection h with h; exact h.symm
        split at h
        · rename_i he; injection h with h; exact h ▸ hadv _ _ _ _ he
        split at h
        · rename_i he; injection h with h; exact h ▸ hai he
        · exact ih _ _ _ h
      · split at h
        · rename_i he; injection h with h; exact h ▸ hai he
        · exact ih _ _ _ h
  simp only [Dims.merge, bind, Except.bind] at h
  split at h
  · rename_i he; injection h with h; exact h ▸ hloop _ _ _ _ he
  · exact hrest _ _ _ h

example := C02_merge_error [(3, 2), (4, 3)] [(4, 5)] .dimension (by decide)

/-- **C02** (content): the result has exactly the dimensions of either operand. -/
theorem C02_merge_content (a b m : Dims) (ha : WF a) (hb : WF b)
    (hai : Dim.invalid ∉ labels a) (hbi : Dim.invalid ∉ labels b) (h : Dims.merge a b = .ok m) :
    ∀ d n, (d, n) ∈ m ↔ (d, n) ∈ a ∨ (d, n) ∈ b := by
  have hc := Dims.merge_ok_cons a b m ha.1 hb.1 h
  rw [Dims.merge_eq a b ha hb hai hbi hc] at h
  injection h with h; subst h
  intro d n
  rw [(Dims.mergePure_perm a b a b).mem_iff, List.mem_append]
  constructor
  · rintro (h | h)
    · exact .inl h
    · exact .inr (List.mem_filter.1 h).1
  · rintro (h | h)
    · exact .inl h
    · by_cases hd : d ∈ labels a
      · obtain ⟨x, hx⟩ := at?_ok_of_mem_labels hd
        have hx := at?_ok_mem hx
        rw [hc d x n hx h] at hx
        exact .inl hx
      · right
        simp only [Dims.nb, List.mem_filter]
        exact ⟨h, by simp [contains_false.2 hd]⟩

example := C02_merge_content [(3, 2), (4, 3)] [(5, 7), (4, 3), (6, 1)] [(3, 2), (5, 7), (4, 3), (6, 1)]
  (by simp [WF, labels]) (by simp [WF, labels]) (by decide) (by decide) (by decide)

/-- **C02** (order): the order of the first operand is kept; the order of the
second is kept as well if both list their shared labels in the same order. -/
theorem C02_merge_order (a b m : Dims) (ha : WF a) (hb : WF b)
    (hai : Dim.invalid ∉ labels a) (hbi : Dim.invalid ∉ labels b) (h : Dims.merge a b = .ok m) :
    a.Sublist m ∧
    ((labels a).filter (· ∈ labels b) = (labels b).filter (· ∈ labels a) → b.Sublist m) := by
  have hc := Dims.merge_ok_cons a b m ha.1 hb.1 h
  rw [Dims.merge_eq a b ha hb hai hbi hc] at h
  injection h with h; subst h
  refine ⟨Dims.mergePure_sublist_left a b a b, fun ho => ?_⟩
  exact Dims.mergePure_sublist_right a b hc a b (List.Sublist.refl _) (List.Sublist.refl _) ha.1 hb.1 ho

example : [(5, 7), (4, 3), (6, 1)].Sublist [(3, (2 : Int)), (5, 7), (4, 3), (6, 1)] :=
  (C02_merge_order [(3, 2), (4, 3)] [(5, 7), (4, 3), (6, 1)] _ (by simp [WF, labels]) (by simp [WF, labels])
    (by decide) (by decide) (by decide)).2 (by decide)

/-- **C02** (no duplicates): the merged labels are unique, so together with
`C02_merge_content` the number of dimensions is that of the union. -/
theorem C02_merge_nodup (a b m : Dims) (h : Dims.merge a b = .ok m) : (labels m).Nodup :=
  (Dims.merge_WF h).1

example := C02_merge_nodup [(3, 2), (4, 3)] [(5, 7), (4, 3), (6, 1)] [(3, 2), (5, 7), (4, 3), (6, 1)] (by decide)

/-- **C02** for the unordered container: merging succeeds exactly if shared labels
agree, and keeps the first operand as a prefix followed by the new labels of the
second in order. -/
theorem C02_mergeSizes (a b : Sizes) (ha : WF a) (hb : WF b) (hbi : Dim.invalid ∉ labels b) :
    ((∃ m, mergeSizes a b = .ok m) ↔ ∀ d x y, (d, x) ∈ a → (d, y) ∈ b → x = y) ∧
    ∀ m, mergeSizes a b = .ok m → m = a ++ b.filter (fun p => !a.contains p.1) := by
  have key : ∀ (l out : Sizes), l.Sublist b → (labels out).Nodup →
      (∀ s', (l.foldlM (fun out p => do Sizes.set out p.1 (← b.at? p.1)) out) = .ok s' →
        (∀ d x y, (d, x) ∈ out → (d, y) ∈ l → x = y) ∧
        s' = out ++ l.filter (fun p => !out.contains p.1)) ∧
      ((∀ d x y, (d, x) ∈ out → (d, y) ∈ l → x = y) →
        ∃ s', (l.foldlM (fun out p => do Sizes.set out p.1 (← b.at? p.1)) out) = .ok s') := by
    intro l
    induction l with
    | nil =>
      intro out _ _
      refine ⟨?_, fun _ => ⟨out, rfl⟩⟩
      intro s' h
      simp [pure, Except.pure] at h; simp [h]
    | cons p l ih =>
      intro out hs hn
      have hpb : p ∈ b := hs.subset (by simp)
      have hs' : l.Sublist b := (List.sublist_cons_self _ _).trans hs
      have hat : at? b p.1 = .ok p.2 := at?_of_mem hb.1 hpb
      have hln : (labels (p :: l)).Nodup := (hs.map _).nodup hb.1
      simp only [labels_cons, List.nodup_cons] at hln
      have hinv : p.1 ≠ Dim.invalid := fun e => hbi (e ▸ mem_labels (x := p.2) hpb)
      have hfil : ∀ (out : Sizes), p.1 ∉ labels out → l.filter (fun q => !contains (out ++ [(p.1, p.2)]) q.1) =
          l.filter (fun q => !contains out q.1) := by
        intro out _
        apply List.filter_congr
        intro q hq
        have : q.1 ≠ p.1 := fun e => hln.1 (e ▸ mem_labels (x := q.2) hq)
        simp [contains, Ne.symm this]
      constructor
      · intro s' h
        simp only [List.foldlM_cons, hat, bind, Except.bind] at h
        split at h
        · simp at h
        rename_i r hr
        obtain ⟨_, h0, hcase⟩ := set_ok hr
        rcases hcase with ⟨hin, rfl⟩ | ⟨hnin, rfl⟩
        · obtain ⟨h1, h2⟩ := (ih r hs' hn).1 s' h
          have hin' := at?_ok_mem hin
          refine ⟨?_, ?_⟩
          · intro d x y hx hy
            rcases List.mem_cons.1 hy with hy | hy
            · have hd : d = p.1 := congrArg Prod.fst hy
              have hyy : y = p.2 := congrArg Prod.snd hy
              subst hd
              have := at?_of_mem hn hx
              rw [hin] at this; injection this with this; rw [hyy, this]
            · exact h1 d x y hx hy
          · rw [h2, List.filter_cons]; simp [contains_iff.2 (mem_labels hin')]
        · have hn' : (labels (out ++ [(p.1, p.2)])).Nodup := by
            simp only [labels_append, labels_cons, labels_nil]
            rw [List.nodup_append]
            refine ⟨hn, by simp, ?_⟩
            intro a ha b hb
            simp at hb; subst hb
            exact fun e => hnin (e ▸ ha)
          obtain ⟨h1, h2⟩ := (ih _ hs' hn').1 s' h
          refine ⟨?_, ?_⟩
          · intro d x y hx hy
            rcases List.mem_cons.1 hy with hy | hy
            · have hd : d = p.1 := congrArg Prod.fst hy
              subst hd
              exact absurd (mem_labels hx) hnin
            · exact h1 d x y (List.mem_append_left _ hx) hy
          · rw [h2, hfil out hnin, List.filter_cons]; simp [contains_false.2 hnin]
      · intro hc
        by_cases hin : p.1 ∈ labels out
        · obtain ⟨x, hx⟩ := at?_ok_of_mem_labels hin
          have hxm := at?_ok_mem hx
          have hxe : x = p.2 := hc p.1 x p.2 hxm (by simp)
          subst hxe
          obtain ⟨s', hs''⟩ := (ih out hs' hn).2 (fun d x y hx hy => hc d x y hx (List.mem_cons_of_mem _ hy))
          refine ⟨s', ?_⟩
          simp only [List.foldlM_cons, hat, bind, Except.bind, set_eq_self hn hinv (hb.2 p hpb) hxm]
          exact hs''
        · have hn' : (labels (out ++ [(p.1, p.2)])).Nodup := by
            simp only [labels_append, labels_cons, labels_nil]
            rw [List.nodup_append]
            refine ⟨hn, by simp, ?_⟩
            intro a ha b hb
            simp at hb; subst hb
            exact fun e => hin (e ▸ ha)
          obtain ⟨s', hs''⟩ := (ih _ hs' hn').2 (by
            intro d x y hx hy
            rcases List.mem_append.1 hx with hx | hx
            · exact hc d x y hx (List.mem_cons_of_mem _ hy)
            · simp at hx
              exact absurd (hx.1 ▸ mem_labels hy) hln.1)
          refine ⟨s', ?_⟩
          simp only [List.foldlM_cons, hat, bind, Except.bind, set_eq_append hinv (hb.2 p hpb) hin]
          exact hs''
  obtain ⟨h1, h2⟩ := key b a (List.Sublist.refl _) ha.1
  exact ⟨⟨fun ⟨m, hm⟩ => (h1 m hm).1, h2⟩, fun m hm => (h1 m hm).2⟩

example := C02_mergeSizes [(3, 2), (4, 3)] [(5, 7), (4, 3), (6, 1)] (by simp [WF, labels]) (by simp [WF, labels]) (by decide)

/-- Hypotheses of the `C02` theorems hold for a non-trivial pair; the result shows
the interleaving of the two label orders. -/
example : WF [(3, 2), (4, 3)] ∧ WF [(5, 7), (4, 3), (6, 1)] ∧
    Dim.invalid ∉ labels [(3, 2), (4, 3)] ∧ Dim.invalid ∉ labels [(5, 7), (4, 3), (6, 1)] ∧
    (labels [(3, 2), (4, 3)]).filter (· ∈ labels [(5, 7), (4, 3), (6, 1)]) =
      (labels [(5, 7), (4, 3), (6, 1)]).filter (· ∈ labels [(3, 2), (4, 3)]) ∧
    Dims.merge [(3, 2), (4, 3)] [(5, 7), (4, 3), (6, 1)] =
      .ok [(3, 2), (5, 7), (4, 3), (6, 1)] ∧
    mergeSizes [(3, 2), (4, 3)] [(5, 7), (4, 3), (6, 1)] =
      .ok [(3, 2), (4, 3), (5, 7), (6, 1)] := by
  simp [WF]; decide

/-- Orders in conflict: only the first operand's order survives. -/
example : Dims.merge [(3, 2), (4, 3)] [(4, 3), (3, 2)] = .ok [(3, 2), (4, 3)] := by decide

/-- Mismatching extents throw. -/
example : Dims.merge [(3, 2), (4, 3)] [(4, 5)] = .error .dimension := by decide

/-- **C02** (intersection): contains exactly the dimensions present in both. -/
theorem C02_intersection (a b s : Dims) (ha : WF a) (hb : WF b)
    (hai : Dim.invalid ∉ labels a) (hbi : Dim.invalid ∉ labels b)
    (h : Dims.intersection a b = .ok s) :
    ∀ d n, (d, n) ∈ s ↔ (d, n) ∈ a ∧ (d, n) ∈ b := by
  rw [Dims.intersection] at h
  cases hm : Dims.merge a b with
  | error e => rw [hm] at h; simp [bind, Except.bind] at h
  | ok m =>
  rw [hm] at h
  have hmem := C02_merge_content a b m ha hb hai hbi hm
  have hc := Dims.merge_ok_cons a b m ha.1 hb.1 hm
  have hmn := (Dims.merge_WF hm).1
  have key : ∀ (l : List Dim) (out s : Dims), (∀ d ∈ l, d ∈ labels m) →
      l.foldlM (fun out d => if contains a d ∧ contains b d then do
          Dims.addInner out d (← at? m d) else .ok out) out = .ok s →
      ∀ d n, (d, n) ∈ s ↔ (d, n) ∈ out ∨ (d ∈ l ∧ (d, n) ∈ m ∧ d ∈ labels a ∧ d ∈ labels b) := by
    intro l
    induction l with
    | nil => intro out s _ h; simp [pure, Except.pure] at h; simp [h]
    | cons e l ih =>
      intro out s hl h d n
      simp only [List.foldlM_cons, bind, Except.bind] at h
      split at h
      · simp at h
      rename_i r hr
      have ih' := ih r s (fun d hd => hl d (List.mem_cons_of_mem _ hd)) h d n
      rw [ih']
      split at hr
      · rename_i hab
        obtain ⟨v, hv⟩ := at?_ok_of_mem_labels (hl e (by simp))
        simp only [hv] at hr
        obtain ⟨hr, _⟩ := Dims.addInner_ok hr
        subst hr
        have hvm := at?_ok_mem hv
        constructor
        · rintro (h | h)
          · rcases List.mem_append.1 h with h | h
            · exact .inl h
            · simp at h
              obtain ⟨rfl, rfl⟩ := h
              exact .inr ⟨by simp, hvm, contains_iff.1 hab.1, contains_iff.1 hab.2⟩
          · exact .inr ⟨List.mem_cons_of_mem _ h.1, h.2⟩
        · rintro (h | ⟨h1, h2, h3⟩)
          · exact .inl (List.mem_append_left _ h)
          · rcases List.mem_cons.1 h1 with h1 | h1
            · subst h1
              have := at?_of_mem hmn h2
              rw [hv] at this; injection this with this; subst this
              left; simp
            · exact .inr ⟨h1, h2, h3⟩
      · rename_i hab
        injection hr with hr; subst hr
        constructor
        · rintro (h | h)
          · exact .inl h
          · exact .inr ⟨List.mem_cons_of_mem _ h.1, h.2⟩
        · rintro (h | ⟨h1, h2, h3⟩)
          · exact .inl h
          · rcases List.mem_cons.1 h1 with h1 | h1
            · subst h1
              exact absurd ⟨contains_iff.2 h3.1, contains_iff.2 h3.2⟩ hab
            · exact .inr ⟨h1, h2, h3⟩
  intro d n
  have hk := key (labels m) [] s (fun d hd => hd) h d n
  rw [hk]
  simp only [List.not_mem_nil, false_or]
  constructor
  · rintro ⟨_, h2, h3, h4⟩
    obtain ⟨x, hx⟩ := at?_ok_of_mem_labels h3
    obtain ⟨y, hy⟩ := at?_ok_of_mem_labels h4
    have hx := at?_ok_mem hx
    have hy := at?_ok_mem hy
    rcases (hmem d n).1 h2 with h | h
    · exact ⟨h, by rw [hc d n y h hy]; exact hy⟩
    · exact ⟨by rw [← hc d x n hx h]; exact hx, h⟩
  · rintro ⟨h1, h2⟩
    exact ⟨mem_labels ((hmem d n).2 (.inl h1)), (hmem d n).2 (.inl h1), mem_labels h1, mem_labels h2⟩

example := C02_intersection [(3, 2), (4, 3)] [(5, 7), (4, 3), (6, 1)] [(4, 3)] (by simp [WF, labels]) (by simp [WF, labels])
  (by decide) (by decide) (by decide)

example : Dims.intersection [(3, 2), (4, 3)] [(5, 7), (4, 3), (6, 1)] = .ok [(4, 3)] := by decide

end Scipp.Props
