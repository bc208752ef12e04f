import Verif.Spec.Sizes
/-! Helper facts about the label/extent containers. -/
namespace Scipp
namespace Sizes

@[simp] theorem labels_nil : labels [] = [] := rfl
@[simp] theorem labels_cons (p : Dim × Int) (s : Sizes) : labels (p :: s) = p.1 :: labels s := rfl
@[simp] theorem labels_append (a b : Sizes) : labels (a ++ b) = labels a ++ labels b := by
  simp [labels]

theorem contains_iff {s : Sizes} {d : Dim} : s.contains d = true ↔ d ∈ labels s := by
  simp [contains, labels]

theorem contains_false {s : Sizes} {d : Dim} : s.contains d = false ↔ d ∉ labels s := by
  rw [← contains_iff]; simp

theorem at?_ok_mem : ∀ {s : Sizes} {d : Dim} {x : Int}, at? s d = .ok x → (d, x) ∈ s
  | [], _, _, h => by simp [at?] at h
  | (k, v) :: s, d, x, h => by
    simp only [at?] at h
    split at h
    · rename_i hk; injection h with h; simp [hk, h]
    · exact List.mem_cons_of_mem _ (at?_ok_mem h)

theorem mem_labels {s : Sizes} {d : Dim} {x : Int} (h : (d, x) ∈ s) : d ∈ labels s := by
  simp only [labels, List.mem_map]; exact ⟨_, h, rfl⟩

theorem at?_of_mem : ∀ {s : Sizes} {d : Dim} {x : Int}, (labels s).Nodup → (d, x) ∈ s → at? s d = .ok x
  | [], _, _, _, h => by simp at h
  | (k, v) :: s, d, x, hn, h => by
    simp only [labels_cons, List.nodup_cons] at hn
    rcases List.mem_cons.1 h with h | h
    · injection h with h1 h2; subst h1; subst h2; simp [at?]
    · have : k ≠ d := fun e => hn.1 (e ▸ mem_labels h)
      simp [at?, this, at?_of_mem hn.2 h]

theorem at?_error {s : Sizes} {d : Dim} : d ∉ labels s → at? s d = .error .dimension := by
  induction s with
  | nil => intro; rfl
  | cons p s ih =>
    intro h
    simp only [labels_cons, List.mem_cons, not_or] at h
    simp [at?, Ne.symm h.1, ih h.2]

theorem at?_ok_of_mem_labels : ∀ {s : Sizes} {d : Dim}, d ∈ labels s → ∃ x, at? s d = .ok x
  | [], _, h => by simp at h
  | (k, v) :: s, d, h => by
    simp only [at?]
    by_cases hk : k = d
    · exact ⟨v, by simp [hk]⟩
    · simp only [labels_cons, List.mem_cons] at h
      rcases h with h | h
      · exact absurd h.symm hk
      · simpa [hk] using at?_ok_of_mem_labels h

theorem at?_iff_mem {s : Sizes} (hn : (labels s).Nodup) {d : Dim} {x : Int} :
    at? s d = .ok x ↔ (d, x) ∈ s := ⟨at?_ok_mem, at?_of_mem hn⟩

theorem at?_error_iff {s : Sizes} {d : Dim} : (∃ e, at? s d = .error e) ↔ d ∉ labels s := by
  constructor
  · rintro ⟨e, h⟩ hm
    obtain ⟨x, hx⟩ := at?_ok_of_mem_labels hm
    simp [hx] at h
  · intro h; exact ⟨_, at?_error h⟩


theorem WF.nil : WF [] := by simp [WF]

theorem assign_ok : ∀ {s s' : Sizes} {d : Dim} {x : Int}, assign s d x = .ok s' →
    labels s' = labels s ∧ (∀ p ∈ s', p ∈ s ∨ p = (d, x)) ∧ d ∈ labels s
  | [], _, _, _, h => by simp [assign] at h
  | (k, v) :: s, s', d, x, h => by
    simp only [assign] at h
    split at h
    · rename_i hk
      injection h with h; subst h; subst hk
      refine ⟨rfl, ?_, by simp⟩
      intro p hp
      rcases List.mem_cons.1 hp with hp | hp
      · exact .inr hp
      · exact .inl (List.mem_cons_of_mem _ hp)
    · cases hr : assign s d x with
      | error e => simp [hr, Except.map] at h
      | ok t =>
        simp only [hr, Except.map] at h
        injection h with h; subst h
        obtain ⟨h1, h2, h3⟩ := assign_ok hr
        refine ⟨by simp [h1], ?_, by simp [h3]⟩
        intro p hp
        rcases List.mem_cons.1 hp with hp | hp
        · exact .inl (by simp [hp])
        · rcases h2 p hp with h | h
          · exact .inl (List.mem_cons_of_mem _ h)
          · exact .inr h

theorem erase_ok : ∀ {s s' : Sizes} {d : Dim}, erase s d = .ok s' →
    s'.Sublist s ∧ d ∈ labels s
  | [], _, _, h => by simp [erase] at h
  | (k, v) :: s, s', d, h => by
    simp only [erase] at h
    split at h
    · rename_i hk
      injection h with h; subst h; subst hk
      exact ⟨List.sublist_cons_self _ _, by simp⟩
    · cases hr : erase s d with
      | error e => simp [hr, Except.map] at h
      | ok t =>
        simp only [hr, Except.map] at h
        injection h with h; subst h
        obtain ⟨h1, h2⟩ := erase_ok hr
        exact ⟨h1.cons_cons _, by simp [h2]⟩

theorem setKey_ok : ∀ {s s' : Sizes} {d d' : Dim}, setKey s d d' = .ok s' →
    shape s' = shape s ∧ d ∈ labels s ∧
    (∀ (hn : (labels s).Nodup), labels s' = (labels s).map (fun k => if k = d then d' else k))
  | [], _, _, _, h => by simp [setKey] at h
  | (k, v) :: s, s', d, d', h => by
    simp only [setKey] at h
    split at h
    · rename_i hk
      injection h with h; subst h; subst hk
      refine ⟨by simp [shape], by simp, ?_⟩
      intro hn
      simp only [labels_cons, List.nodup_cons] at hn
      have : (labels s).map (fun j => if j = k then d' else j) = labels s := by
        rw [List.map_congr_left (g := id)]
        · simp
        · intro a ha
          have : a ≠ k := fun e => hn.1 (e ▸ ha)
          simp [this]
      simp [this]
    · rename_i hk
      cases hr : setKey s d d' with
      | error e => simp [hr, Except.map] at h
      | ok t =>
        simp only [hr, Except.map] at h
        injection h with h; subst h
        obtain ⟨h1, h2, h3⟩ := setKey_ok hr
        refine ⟨by simpa [shape] using h1, by simp [h2], ?_⟩
        intro hn
        simp only [labels_cons, List.nodup_cons] at hn
        simp [h3 hn.2, hk]

theorem nodup_map_replace {l : List Dim} {d d' : Dim} (hn : l.Nodup) (h : d = d' ∨ d' ∉ l) :
    (l.map (fun k => if k = d then d' else k)).Nodup := by
  rcases h with h | h
  · subst h
    have : l.map (fun k => if k = d then d else k) = l := by
      rw [List.map_congr_left (g := id)]
      · simp
      · intro a _; by_cases e : a = d <;> simp [e]
    rwa [this]
  · rw [List.nodup_iff_pairwise_ne, List.pairwise_map]
    rw [List.nodup_iff_pairwise_ne] at hn
    refine hn.imp_of_mem ?_
    intro a b ha hb hab
    by_cases h1 : a = d <;> by_cases h2 : b = d <;> simp [h1, h2]
    · exact absurd (h1.trans h2.symm) hab
    · intro e; exact h (e ▸ hb)
    · intro e; exact h (e ▸ ha)
    · exact hab

theorem shape_nonneg_iff {s : Sizes} : (∀ p ∈ s, 0 ≤ p.2) ↔ ∀ x ∈ shape s, 0 ≤ x := by
  simp [shape]
  constructor
  · intro h x a hm; exact h a x hm
  · intro h a b hm; exact h b a hm

theorem replaceKey_ok {s s' : Sizes} {d d' : Dim} (h : replaceKey s d d' = .ok s') :
    setKey s d d' = .ok s' ∧ (d = d' ∨ d' ∉ labels s) := by
  simp only [replaceKey] at h
  split at h
  · simp at h
  · rename_i hc
    refine ⟨h, ?_⟩
    by_cases e : d = d'
    · exact .inl e
    · right
      intro hm
      exact hc ⟨e, contains_iff.2 hm⟩

theorem replaceKey_WF {s s' : Sizes} {d d' : Dim} (h : replaceKey s d d' = .ok s') (hw : WF s) : WF s' := by
  obtain ⟨h1, h2⟩ := replaceKey_ok h
  obtain ⟨hs, _, hl⟩ := setKey_ok h1
  refine ⟨?_, ?_⟩
  · rw [hl hw.1]; exact nodup_map_replace hw.1 h2
  · rw [shape_nonneg_iff, hs, ← shape_nonneg_iff]; exact hw.2

theorem assign_WF {s s' : Sizes} {d : Dim} {x : Int} (h : assign s d x = .ok s') (hx : 0 ≤ x)
    (hw : WF s) : WF s' := by
  obtain ⟨h1, h2, _⟩ := assign_ok h
  refine ⟨h1 ▸ hw.1, ?_⟩
  intro p hp
  rcases h2 p hp with h | h
  · exact hw.2 p h
  · simp [h, hx]

theorem resize_WF {s s' : Sizes} {d : Dim} {x : Int} (h : resize s d x = .ok s')
    (hw : WF s) : WF s' := by
  simp only [resize] at h
  split at h
  · simp at h
  · exact assign_WF h (by omega) hw

theorem sublist_WF {s s' : Sizes} (h : s'.Sublist s) (hw : WF s) : WF s' :=
  ⟨(h.map _).nodup hw.1, fun p hp => hw.2 p (h.subset hp)⟩

theorem erase_WF {s s' : Sizes} {d : Dim} (h : erase s d = .ok s') (hw : WF s) : WF s' :=
  sublist_WF (erase_ok h).1 hw

theorem insertRight_ok {s s' : Sizes} {d : Dim} {x : Int} (h : insertRight s d x = .ok s') :
    s' = s ++ [(d, x)] ∧ d ∉ labels s := by
  simp only [insertRight] at h
  split at h
  · simp at h
  · rename_i hc
    injection h with h
    exact ⟨h.symm, by rw [← contains_false]; simpa using hc⟩

theorem insertLeft_ok {s s' : Sizes} {d : Dim} {x : Int} (h : insertLeft s d x = .ok s') :
    s' = (d, x) :: s ∧ d ∉ labels s := by
  simp only [insertLeft] at h
  split at h
  · simp at h
  · rename_i hc
    injection h with h
    exact ⟨h.symm, by rw [← contains_false]; simpa using hc⟩

theorem insertRight_WF {s s' : Sizes} {d : Dim} {x : Int} (h : insertRight s d x = .ok s')
    (hx : 0 ≤ x) (hw : WF s) : WF s' := by
  obtain ⟨rfl, hd⟩ := insertRight_ok h
  refine ⟨?_, ?_⟩
  · simp only [labels_append, labels_cons, labels_nil]
    rw [List.nodup_append]
    refine ⟨hw.1, by simp, ?_⟩
    intro a ha b hb
    simp at hb; subst hb
    exact fun e => hd (e ▸ ha)
  · intro p hp
    rcases List.mem_append.1 hp with h | h
    · exact hw.2 p h
    · simp at h; simp [h, hx]

theorem insertLeft_WF {s s' : Sizes} {d : Dim} {x : Int} (h : insertLeft s d x = .ok s')
    (hx : 0 ≤ x) (hw : WF s) : WF s' := by
  obtain ⟨rfl, hd⟩ := insertLeft_ok h
  refine ⟨by simp [hd, hw.1], ?_⟩
  intro p hp
  rcases List.mem_cons.1 hp with h | h
  · simp [h, hx]
  · exact hw.2 p h

theorem set_WF {s s' : Sizes} {d : Dim} {x : Int} (h : set s d x = .ok s') (hw : WF s) : WF s' := by
  simp only [set] at h
  split at h
  · simp at h
  split at h
  · simp at h
  split at h
  · split at h
    · simp at h
    · injection h with h; exact h ▸ hw
  · exact insertRight_WF h (by omega) hw

theorem slice_WF {s s' : Sizes} {p : Slice} (h : slice s p = .ok s') (hw : WF s) : WF s' := by
  simp only [slice] at h
  cases hv : validSlice s p with
  | error e => simp [hv, bind, Except.bind] at h
  | ok u =>
    simp only [hv, bind, Except.bind] at h
    split at h
    · injection h with h; exact h ▸ hw
    split at h
    · exact resize_WF h hw
    · exact erase_WF h hw

theorem renameDims_WF : ∀ {ns : List (Dim × Dim)} {s s' : Sizes} {b : Bool},
    renameDims s ns b = .ok s' → WF s → WF s'
  | [], s, s', b, h, hw => by
    simp only [renameDims] at h; injection h with h; exact h ▸ hw
  | (f, t) :: ns, s, s', b, h, hw => by
    simp only [renameDims] at h
    split at h
    · cases hr : replaceKey s f t with
      | error e => simp [hr, bind, Except.bind] at h
      | ok r =>
        simp only [hr, bind, Except.bind] at h
        exact renameDims_WF h (replaceKey_WF hr hw)
    split at h
    · simp at h
    · exact renameDims_WF h hw

end Sizes

namespace Dims
open Sizes

theorem addInner_ok {s s' : Dims} {d : Dim} {x : Int} (h : addInner s d x = .ok s') :
    s' = s ++ [(d, x)] ∧ d ∉ labels s ∧ 0 ≤ x ∧ d ≠ Dim.invalid := by
  simp only [addInner] at h
  split at h
  · simp at h
  split at h
  · simp at h
  · obtain ⟨h1, h2⟩ := insertRight_ok h
    exact ⟨h1, h2, by omega, by assumption⟩

theorem addInner_eq {s : Dims} {d : Dim} {x : Int} (h1 : d ∉ labels s) (h2 : 0 ≤ x)
    (h3 : d ≠ Dim.invalid) : addInner s d x = .ok (s ++ [(d, x)]) := by
  have : ¬ x < 0 := by omega
  have h4 : contains s d = false := contains_false.2 h1
  simp [addInner, h3, this, insertRight, h4]

theorem addInner_WF {s s' : Dims} {d : Dim} {x : Int} (h : addInner s d x = .ok s') (hw : WF s) :
    WF s' := by
  have hx := (addInner_ok h).2.2.1
  simp only [addInner] at h
  split at h
  · simp at h
  split at h
  · simp at h
  · exact insertRight_WF h hx hw

theorem add_WF {s s' : Dims} {d : Dim} {x : Int} (h : add s d x = .ok s') (hw : WF s) :
    WF s' := by
  simp only [add] at h
  split at h
  · simp at h
  split at h
  · simp at h
  · exact insertLeft_WF h (by omega) hw

theorem foldlM_WF {α : Type} {f : Dims → α → Except Err Dims}
    (hf : ∀ s a s', f s a = .ok s' → WF s → WF s') :
    ∀ (l : List α) (s s' : Dims), l.foldlM f s = .ok s' → WF s → WF s'
  | [], s, s', h, hw => by
    simp [pure, Except.pure] at h; exact h ▸ hw
  | a :: l, s, s', h, hw => by
    simp only [List.foldlM_cons, bind, Except.bind] at h
    cases hr : f s a with
    | error e => simp [hr] at h
    | ok r =>
      simp only [hr] at h
      exact foldlM_WF hf l r s' h (hf s a r hr hw)

theorem ofLabels_WF {ls : List Dim} {sh : List Int} {s : Dims} (h : ofLabels ls sh = .ok s) : WF s := by
  simp only [ofLabels] at h
  split at h
  · simp at h
  · exact foldlM_WF (fun s a s' h hw => addInner_WF h hw) _ _ _ h WF.nil

theorem transpose_WF {s s' : Dims} {ls : List Dim} (h : transpose s ls = .ok s') : WF s' := by
  have : ∀ ls', transposeImpl s ls' = .ok s' → WF s' := by
    intro ls' h
    simp only [transposeImpl] at h
    split at h
    · simp at h
    · simp only [bind, Except.bind] at h
      split at h
      · simp at h
      · exact ofLabels_WF h
  simp only [transpose] at h
  split at h <;> exact this _ h

theorem fold_WF {s s' t : Dims} {d : Dim} (h : fold s d t = .ok s') : WF s' := by
  simp only [fold] at h
  split at h
  · simp at h
  · simp only [bind, Except.bind] at h
    split at h
    · simp at h
    · rename_i r hr
      split at h
      · simp at h
      · injection h with h; subst h
        refine foldlM_WF ?_ _ _ _ hr WF.nil
        intro s a s' h hw
        split at h
        · exact addInner_WF h hw
        · exact foldlM_WF (fun s a s' h hw => addInner_WF h hw) _ _ _ h hw

theorem mergeAdvance_WF (a b : Dims) (d : Dim) : ∀ (it : List Dim) (out : Dims) (r : List Dim × Dims),
    mergeAdvance a b d it out = .ok r → WF out → WF r.2
  | [], out, r, h, hw => by simp only [mergeAdvance] at h; injection h with h; exact h ▸ hw
  | i :: it, out, r, h, hw => by
    simp only [mergeAdvance] at h
    split at h
    · injection h with h; exact h ▸ hw
    split at h
    · exact mergeAdvance_WF a b d it out r h hw
    · simp only [bind, Except.bind] at h
      split at h
      · simp at h
      split at h
      · simp at h
      · rename_i _ _ _ o ho
        exact mergeAdvance_WF a b d it o r h (addInner_WF ho hw)

theorem mergeRest_WF (a b : Dims) : ∀ (it : List Dim) (out r : Dims),
    mergeRest a b it out = .ok r → WF out → WF r
  | [], out, r, h, hw => by simp only [mergeRest] at h; injection h with h; exact h ▸ hw
  | i :: it, out, r, h, hw => by
    simp only [mergeRest] at h
    split at h
    · exact mergeRest_WF a b it out r h hw
    · simp only [bind, Except.bind] at h
      split at h
      · simp at h
      split at h
      · simp at h
      · rename_i _ _ _ o ho
        exact mergeRest_WF a b it o r h (addInner_WF ho hw)

theorem mergeLoop_WF (a b : Dims) : ∀ (ds it : List Dim) (out : Dims) (r : List Dim × Dims),
    mergeLoop a b ds it out = .ok r → WF out → WF r.2
  | [], it, out, r, h, hw => by simp only [mergeLoop] at h; injection h with h; exact h ▸ hw
  | d :: ds, it, out, r, h, hw => by
    simp only [mergeLoop, bind, Except.bind] at h
    split at h
    · simp at h
    split at h
    · split at h
      · simp at h
      split at h
      · simp at h
      split at h
      · simp at h
      rename_i _ _ _ _ _ _ _ _ _ o ho
      split at h
      · simp at h
      rename_i _ o' ho'
      exact mergeLoop_WF a b ds _ _ r h (addInner_WF ho' (mergeAdvance_WF a b d _ _ _ ho hw))
    · split at h
      · simp at h
      rename_i _ o' ho'
      exact mergeLoop_WF a b ds _ _ r h (addInner_WF ho' hw)

theorem merge_WF {a b m : Dims} (h : merge a b = .ok m) : WF m := by
  simp only [merge, bind, Except.bind] at h
  split at h
  · simp at h
  rename_i r hr
  exact mergeRest_WF a b _ _ _ h (mergeLoop_WF a b _ _ _ _ hr WF.nil)

/-! ### merge: closed form -/

/-- Entries of `l` whose label is not in `a`. -/
def nb (a l : Dims) : Dims := l.filter (fun p => !contains a p.1)

/-- Pure form of the merge loop. -/
def mergePure (a b : Dims) : Dims → Dims → Dims
  | [], it => nb a it
  | p :: as, it =>
    if contains b p.1 then
      nb a (it.takeWhile (fun q => q.1 != p.1)) ++ p :: mergePure a b as (it.dropWhile (fun q => q.1 != p.1))
    else p :: mergePure a b as it

theorem nb_append (a l l' : Dims) : nb a (l ++ l') = nb a l ++ nb a l' := by simp [nb]

theorem mergePure_perm (a b : Dims) : ∀ (as it : Dims), (mergePure a b as it).Perm (as ++ nb a it)
  | [], it => by simp [mergePure]
  | p :: as, it => by
    simp only [mergePure]
    split
    · have h1 := mergePure_perm a b as (it.dropWhile (fun q => q.1 != p.1))
      have h2 : nb a it = nb a (it.takeWhile (fun q => q.1 != p.1)) ++
          nb a (it.dropWhile (fun q => q.1 != p.1)) := by
        rw [← nb_append, List.takeWhile_append_dropWhile]
      rw [h2]
      refine List.perm_middle.trans ?_
      rw [List.cons_append]
      refine List.Perm.cons _ ?_
      refine (List.Perm.append_left _ h1).trans ?_
      rw [← List.append_assoc, ← List.append_assoc]
      exact List.Perm.append_right _ List.perm_append_comm
    · exact (mergePure_perm a b as it).cons _

theorem mergePure_sublist_left (a b : Dims) : ∀ (as it : Dims), as.Sublist (mergePure a b as it)
  | [], it => List.nil_sublist _
  | p :: as, it => by
    simp only [mergePure]
    split
    · exact ((mergePure_sublist_left a b as _).cons_cons p).trans (List.sublist_append_right _ _)
    · exact (mergePure_sublist_left a b as _).cons_cons p

theorem mergePure_skip (a b : Dims) (p : Dim × Int) (hp : p.1 ∈ labels a) :
    ∀ (as it : Dims), p.1 ∉ labels as → mergePure a b as (p :: it) = mergePure a b as it
  | [], it, _ => by simp [mergePure, nb, contains_iff.2 hp]
  | q :: as, it, h => by
    simp only [labels_cons, List.mem_cons, not_or] at h
    simp only [mergePure]
    split
    · have : (p.1 != q.1) = true := by simp [h.1]
      simp [List.takeWhile_cons, List.dropWhile_cons, this, nb, contains_iff.2 hp]
    · rw [mergePure_skip a b p hp as it h.2]

theorem nb_eq_self {a l : Dims} (h : ∀ p ∈ l, p.1 ∉ labels a) : nb a l = l := by
  unfold nb; rw [List.filter_eq_self]
  intro p hp
  simp [contains_false.2 (h p hp)]

/-- If the shared labels are in the same order, `it` is a sublist of the result. -/
theorem mergePure_sublist_right (a b : Dims)
    (hcons : ∀ d x y, (d, x) ∈ a → (d, y) ∈ b → x = y) :
    ∀ (as it : Dims), as.Sublist a → it.Sublist b → (labels as).Nodup → (labels it).Nodup →
      (labels as).filter (fun d => d ∈ labels b) = (labels it).filter (fun d => d ∈ labels a) →
      it.Sublist (mergePure a b as it)
  | [], it, _, _, _, _, h => by
    simp only [mergePure]
    rw [nb_eq_self]
    · exact List.Sublist.refl _
    · intro p hp hpa
      have : p.1 ∈ (labels it).filter (fun d => d ∈ labels a) := by
        simp [List.mem_filter, hpa]; exact mem_labels (x := p.2) hp
      rw [← h] at this; simp at this
  | q :: as, it, ha, hb, hn, hni, h => by
    simp only [labels_cons, List.nodup_cons] at hn
    simp only [mergePure]
    split
    · rename_i hq
      have hqb := contains_iff.1 hq
      have hqa : q.1 ∈ labels a := (mem_labels (x := q.2) (ha.subset (by simp)))
      simp only [labels_cons, List.filter_cons, hqb, decide_true, if_true] at h
      -- split `it` at `q.1`
      have key : ∀ (l : Dims), (q.1 :: (labels as).filter (fun d => d ∈ labels b)) =
          (labels l).filter (fun d => d ∈ labels a) → (labels l).Nodup → 
          ∃ pre x post, l = pre ++ (q.1, x) :: post ∧ (∀ p ∈ pre, p.1 ∉ labels a) ∧
            (∀ p ∈ pre, p.1 ≠ q.1) ∧
            (labels as).filter (fun d => d ∈ labels b) = (labels post).filter (fun d => d ∈ labels a) := by
        intro l
        induction l with
        | nil => intro h; simp at h
        | cons p l ih =>
          intro h hnl
          simp only [labels_cons, List.nodup_cons] at hnl
          simp only [labels_cons, List.filter_cons] at h
          split at h
          · injection h with h1 h2
            refine ⟨[], p.2, l, ?_, by simp, by simp, h2⟩
            simp [h1]
          · rename_i hpa
            obtain ⟨pre, x, post, h1, h2, h3, h4⟩ := ih h hnl.2
            refine ⟨p :: pre, x, post, by simp [h1], ?_, ?_, h4⟩
            · intro r hr
              rcases List.mem_cons.1 hr with hr | hr
              · subst hr; simpa using hpa
              · exact h2 r hr
            · intro r hr
              rcases List.mem_cons.1 hr with hr | hr
              · subst hr; intro e
                apply hnl.1
                rw [e, h1]; simp
              · exact h3 r hr
      obtain ⟨pre, x, post, h1, h2, h3, h4⟩ := key it h hni
      subst h1
      have hx : q.2 = x := hcons q.1 q.2 x (ha.subset (by simp)) (hb.subset (by simp))
      have htake : (pre ++ (q.1, x) :: post).takeWhile (fun r => r.1 != q.1) = pre := by
        rw [List.takeWhile_append_of_pos]
        · simp
        · intro r hr; simpa using h3 r hr
      have hdrop : (pre ++ (q.1, x) :: post).dropWhile (fun r => r.1 != q.1) = (q.1, x) :: post := by
        rw [List.dropWhile_append_of_pos]
        · simp
        · intro r hr; simpa using h3 r hr
      rw [htake, hdrop, nb_eq_self h2]
      refine List.Sublist.append (List.Sublist.refl _) ?_
      have hqe : q = (q.1, x) := by rw [← hx]
      rw [mergePure_skip a b (q.1, x) hqa as post hn.1]
      conv => rhs; rw [hqe]
      refine List.Sublist.cons_cons _ ?_
      apply mergePure_sublist_right a b hcons as post
      · exact (List.sublist_cons_self _ _).trans ha
      · exact ((List.sublist_cons_self _ _).trans (List.sublist_append_right _ _)).trans hb
      · exact hn.2
      · simp only [labels_append, labels_cons] at hni
        have := (List.nodup_append.1 hni).2.1
        exact (List.nodup_cons.1 this).2
      · exact h4
    · rename_i hq
      have hqb : q.1 ∉ labels b := fun e => hq (contains_iff.2 e)
      have : (q.1 ∈ labels b) = False := by simp [hqb]
      simp only [labels_cons, List.filter_cons, this, decide_false] at h
      refine List.Sublist.cons _ ?_
      exact mergePure_sublist_right a b hcons as it ((List.sublist_cons_self _ _).trans ha) hb hn.2 hni
        (by simpa using h)

theorem mergeAdvance_eq (a b : Dims) (hb : WF b) (hbi : Dim.invalid ∉ labels b) (d : Dim) :
    ∀ (it out : Dims), it.Sublist b → (labels (out ++ nb a it)).Nodup →
      mergeAdvance a b d (labels it) out =
        .ok (labels (it.dropWhile (fun q => q.1 != d)), out ++ nb a (it.takeWhile (fun q => q.1 != d)))
  | [], out, _, _ => by simp [mergeAdvance, nb]
  | p :: it, out, hs, hn => by
    have hpb : p ∈ b := hs.subset (by simp)
    have hs' : it.Sublist b := (List.sublist_cons_self _ _).trans hs
    simp only [labels_cons, mergeAdvance]
    by_cases hd : p.1 = d
    · simp [hd, nb]
    · have hd' : (p.1 != d) = true := by simp [hd]
      simp only [hd, if_false]
      by_cases hc : contains a p.1 = true
      · simp only [hc, if_true, List.dropWhile_cons, List.takeWhile_cons, hd']
        rw [mergeAdvance_eq a b hb hbi d it out hs' ?_]
        · simp [nb, hc]
        · simpa [nb, hc] using hn
      · simp only [hc]
        have hat : at? b p.1 = .ok p.2 := at?_of_mem hb.1 hpb
        simp only [hat, bind, Except.bind]
        have hnp : nb a (p :: it) = p :: nb a it := by simp [nb, hc]
        rw [hnp] at hn
        have hpo : p.1 ∉ labels out := by
          simp only [labels_append, labels_cons] at hn
          intro e
          exact (List.nodup_append.1 hn).2.2 _ e _ (by simp) rfl
        have hinv : p.1 ≠ Dim.invalid := fun e => hbi (e ▸ mem_labels (x := p.2) hpb)
        rw [addInner_eq hpo (hb.2 p hpb) hinv]
        simp only [Bool.false_eq_true, if_false]
        rw [mergeAdvance_eq a b hb hbi d it _ hs' ?_]
        · simp [nb, hc, List.takeWhile_cons, List.dropWhile_cons, hd']
        · simpa using hn

theorem mergeRest_eq (a b : Dims) (hb : WF b) (hbi : Dim.invalid ∉ labels b) :
    ∀ (it out : Dims), it.Sublist b → (labels (out ++ nb a it)).Nodup →
      mergeRest a b (labels it) out = .ok (out ++ nb a it)
  | [], out, _, _ => by simp [mergeRest, nb]
  | p :: it, out, hs, hn => by
    have hpb : p ∈ b := hs.subset (by simp)
    have hs' : it.Sublist b := (List.sublist_cons_self _ _).trans hs
    simp only [labels_cons, mergeRest]
    by_cases hc : contains a p.1 = true
    · simp only [hc, if_true]
      rw [mergeRest_eq a b hb hbi it out hs' ?_]
      · simp [nb, hc]
      · simpa [nb, hc] using hn
    · simp only [hc]
      have hat : at? b p.1 = .ok p.2 := at?_of_mem hb.1 hpb
      simp only [hat, bind, Except.bind]
      have hnp : nb a (p :: it) = p :: nb a it := by simp [nb, hc]
      rw [hnp] at hn
      have hpo : p.1 ∉ labels out := by
        simp only [labels_append, labels_cons] at hn
        intro e
        exact (List.nodup_append.1 hn).2.2 _ e _ (by simp) rfl
      have hinv : p.1 ≠ Dim.invalid := fun e => hbi (e ▸ mem_labels (x := p.2) hpb)
      rw [addInner_eq hpo (hb.2 p hpb) hinv]
      simp only [Bool.false_eq_true, if_false]
      rw [mergeRest_eq a b hb hbi it _ hs' ?_]
      · simp [nb, hc]
      · simpa using hn

/-- Full loop of merge including the final while. -/
theorem mergeLoop_eq (a b : Dims) (ha : WF a) (hb : WF b) (hai : Dim.invalid ∉ labels a)
    (hbi : Dim.invalid ∉ labels b) :
    ∀ (as it out : Dims), as.Sublist a → it.Sublist b → (labels (out ++ (as ++ nb a it))).Nodup →
      (∀ p ∈ as, ∀ y, (p.1, y) ∈ b → p.2 = y) →
      (mergeLoop a b (labels as) (labels it) out >>= fun r => mergeRest a b r.1 r.2) =
        .ok (out ++ mergePure a b as it)
  | [], it, out, _, hs, hn, _ => by
    simp only [labels_nil, mergeLoop, mergePure, bind, Except.bind]
    exact mergeRest_eq a b hb hbi it out hs (by simpa using hn)
  | p :: as, it, out, hsa, hs, hn, hc => by
    have hpa : p ∈ a := hsa.subset (by simp)
    have hsa' : as.Sublist a := (List.sublist_cons_self _ _).trans hsa
    have hat : at? a p.1 = .ok p.2 := at?_of_mem ha.1 hpa
    have hinv : p.1 ≠ Dim.invalid := fun e => hai (e ▸ mem_labels (x := p.2) hpa)
    have hp0 := ha.2 p hpa
    simp only [labels_cons, mergeLoop, hat]
    simp only [bind, Except.bind]
    by_cases hb' : contains b p.1 = true
    · simp only [hb', if_true, mergePure]
      obtain ⟨y, hy⟩ := at?_ok_of_mem_labels (contains_iff.1 hb')
      have hxy : p.2 = y := hc p (by simp) y (at?_ok_mem hy)
      simp only [hy, hxy, ne_eq, not_true_eq_false, if_false]
      have hsplit : nb a it = nb a (it.takeWhile (fun q => q.1 != p.1)) ++
          nb a (it.dropWhile (fun q => q.1 != p.1)) := by
        rw [← nb_append, List.takeWhile_append_dropWhile]
      have hn1 : (labels (out ++ nb a it)).Nodup := by
        refine List.Nodup.sublist ?_ hn
        exact List.Sublist.map _ (List.Sublist.append (List.Sublist.refl _) (List.sublist_append_right _ _))
      rw [mergeAdvance_eq a b hb hbi p.1 it out hs hn1]
      simp only
      have hperm : (labels (out ++ nb a (it.takeWhile (fun q => q.1 != p.1)) ++ [p] ++
          (as ++ nb a (it.dropWhile (fun q => q.1 != p.1))))).Nodup := by
        refine List.Perm.nodup ?_ hn
        refine List.Perm.map _ ?_
        rw [hsplit]
        simp only [List.append_assoc, List.cons_append, List.nil_append]
        refine List.Perm.append_left _ ?_
        refine List.Perm.trans ?_ List.perm_middle.symm
        refine List.Perm.cons _ ?_
        rw [← List.append_assoc, ← List.append_assoc]
        exact List.Perm.append_right _ List.perm_append_comm
      have hpn : p.1 ∉ labels (out ++ nb a (it.takeWhile (fun q => q.1 != p.1))) := by
        intro e
        have h1 := (List.nodup_append.1 (show (labels (out ++ nb a (it.takeWhile (fun q => q.1 != p.1))) ++ (labels [p] ++
          labels (as ++ nb a (it.dropWhile (fun q => q.1 != p.1))))).Nodup by simpa using hperm)).2.2
        exact h1 _ e _ (by simp) rfl
      rw [addInner_eq hpn (hxy ▸ hp0) hinv]
      simp only
      have ih := mergeLoop_eq a b ha hb hai hbi as (it.dropWhile (fun q => q.1 != p.1))
        (out ++ nb a (it.takeWhile (fun q => q.1 != p.1)) ++ [p]) hsa'
        ((List.dropWhile_sublist _).trans hs) hperm (fun q hq => hc q (List.mem_cons_of_mem _ hq))
      simp only [bind, Except.bind] at ih
      have hpe : (p.1, y) = p := by rw [← hxy]
      rw [hpe, ih]
      simp
    · simp only [hb', mergePure, Bool.false_eq_true, if_false]
      have hpn : p.1 ∉ labels out := by
        intro e
        have h1 := (List.nodup_append.1 (show (labels out ++ labels (p :: as ++ nb a it)).Nodup by simpa using hn)).2.2
        exact h1 _ e _ (by simp) rfl
      rw [addInner_eq hpn hp0 hinv]
      simp only
      have ih := mergeLoop_eq a b ha hb hai hbi as it (out ++ [p]) hsa' hs (by simpa using hn)
        (fun q hq => hc q (List.mem_cons_of_mem _ hq))
      simp only [bind, Except.bind] at ih
      have hpe : (p.1, p.2) = p := rfl
      rw [hpe, ih]
      simp

theorem nodup_append_nb (a b : Dims) (ha : (labels a).Nodup) (hb : (labels b).Nodup) :
    (labels (a ++ nb a b)).Nodup := by
  rw [labels_append, List.nodup_append]
  refine ⟨ha, List.Nodup.sublist (List.Sublist.map _ List.filter_sublist) hb, ?_⟩
  intro x hx y hy e
  subst e
  simp only [labels, nb, List.mem_map, List.mem_filter] at hy
  obtain ⟨p, ⟨_, hp⟩, rfl⟩ := hy
  simp [contains_false] at hp
  exact hp hx

theorem merge_eq (a b : Dims) (ha : WF a) (hb : WF b) (hai : Dim.invalid ∉ labels a)
    (hbi : Dim.invalid ∉ labels b) (hc : ∀ d x y, (d, x) ∈ a → (d, y) ∈ b → x = y) :
    merge a b = .ok (mergePure a b a b) := by
  have := mergeLoop_eq a b ha hb hai hbi a b [] (List.Sublist.refl _) (List.Sublist.refl _)
    (by simpa using nodup_append_nb a b ha.1 hb.1) (fun p hp y hy => hc p.1 p.2 y hp hy)
  simpa [merge] using this

/-- The loop throws at the first mismatch. -/
theorem mergeLoop_ok_cons (a b : Dims) (ha : (labels a).Nodup) (hb : (labels b).Nodup) :
    ∀ (as : Dims) (it : List Dim) (out : Dims) (r : List Dim × Dims), as.Sublist a →
      mergeLoop a b (labels as) it out = .ok r → ∀ p ∈ as, ∀ y, (p.1, y) ∈ b → p.2 = y
  | [], _, _, _, _, _ => by simp
  | p :: as, it, out, r, hsa, h => by
    have hpa : p ∈ a := hsa.subset (by simp)
    have hsa' : as.Sublist a := (List.sublist_cons_self _ _).trans hsa
    have hat : at? a p.1 = .ok p.2 := at?_of_mem ha hpa
    simp only [labels_cons, mergeLoop, hat, bind, Except.bind] at h
    intro q hq y hy
    split at h
    · split at h
      · simp at h
      rename_i _ z hz
      split at h
      · simp at h
      rename_i hpz
      split at h
      · simp at h
      split at h
      · simp at h
      rcases List.mem_cons.1 hq with hq | hq
      · subst hq
        have := at?_of_mem hb hy
        rw [hz] at this; injection this with this
        rw [← this]; simpa using hpz
      · exact mergeLoop_ok_cons a b ha hb as _ _ r hsa' h q hq y hy
    · rename_i hnb
      split at h
      · simp at h
      rcases List.mem_cons.1 hq with hq | hq
      · subst hq
        exact absurd (contains_iff.2 (mem_labels hy)) hnb
      · exact mergeLoop_ok_cons a b ha hb as _ _ r hsa' h q hq y hy

theorem merge_ok_cons (a b m : Dims) (ha : (labels a).Nodup) (hb : (labels b).Nodup) (h : merge a b = .ok m) :
    ∀ d x y, (d, x) ∈ a → (d, y) ∈ b → x = y := by
  simp only [merge, bind, Except.bind] at h
  split at h
  · simp at h
  rename_i r hr
  intro d x y hx hy
  exact mergeLoop_ok_cons a b ha hb a _ _ r (List.Sublist.refl _) hr (d, x) hx y hy

end Dims
end Scipp

namespace Scipp
namespace Sizes

theorem concat2_WF {a b s : Sizes} {d : Dim} (h : concat2 a b d = .ok s) (ha : WF a) : WF s := by
  simp only [concat2, bind, Except.bind] at h
  split at h
  · cases ho : a.slice ⟨d, 0, -1, 1⟩ with
    | error e => simp [ho] at h
    | ok o =>
      have hw := slice_WF ho ha
      simp only [ho] at h
      (repeat' split at h) <;> first | exact set_WF h hw | simp at h
  · (repeat' split at h) <;> first | exact set_WF h ha | simp at h

theorem concat_WF {ss : List Sizes} {s : Sizes} {d : Dim} (h : concat ss d = .ok s)
    (hs : ∀ x ∈ ss, WF x) : WF s := by
  cases ss with
  | nil => simp [concat] at h
  | cons x xs =>
    exact Dims.foldlM_WF (fun s a s' h hw => concat2_WF h hw) _ _ _ h (hs x (by simp))

theorem mergeSizes_WF {a b s : Sizes} (h : mergeSizes a b = .ok s) (ha : WF a) : WF s := by
  refine Dims.foldlM_WF ?_ _ _ _ h ha
  intro s p s' h hw
  simp only [bind, Except.bind] at h
  split at h
  · simp at h
  · exact set_WF h hw

/-- Consistent, valid entries can always be set. -/
theorem set_eq_self {s : Sizes} {d : Dim} {x : Int} (hn : (labels s).Nodup) (hd : d ≠ Dim.invalid)
    (hx : 0 ≤ x) (hm : (d, x) ∈ s) : set s d x = .ok s := by
  have : ¬ x < 0 := by omega
  simp [set, hd, this, at?_of_mem hn hm]

theorem set_eq_append {s : Sizes} {d : Dim} {x : Int} (hd : d ≠ Dim.invalid)
    (hx : 0 ≤ x) (hm : d ∉ labels s) : set s d x = .ok (s ++ [(d, x)]) := by
  have : ¬ x < 0 := by omega
  simp [set, hd, this, at?_error hm, insertRight, contains_false.2 hm]

theorem set_ok {s s' : Sizes} {d : Dim} {x : Int} (h : set s d x = .ok s') :
    d ≠ Dim.invalid ∧ 0 ≤ x ∧ ((at? s d = .ok x ∧ s' = s) ∨ (d ∉ labels s ∧ s' = s ++ [(d, x)])) := by
  simp only [set] at h
  split at h
  · simp at h
  split at h
  · simp at h
  refine ⟨by assumption, by omega, ?_⟩
  split at h
  · rename_i y hy
    split at h
    · simp at h
    · rename_i hxy
      injection h with h
      left
      have : y = x := by simpa using hxy
      exact ⟨this ▸ hy, h.symm⟩
  · obtain ⟨h1, h2⟩ := insertRight_ok h
    exact .inr ⟨h2, h1⟩

end Sizes

namespace Dims
open Sizes
theorem intersection_WF {a b s : Dims} (h : intersection a b = .ok s) : WF s := by
  simp only [intersection, bind, Except.bind] at h
  split at h
  · simp at h
  refine foldlM_WF ?_ _ _ _ h WF.nil
  intro s d s' h hw
  split at h
  · split at h
    · simp at h
    · exact addInner_WF h hw
  · injection h with h; exact h ▸ hw

/-- `addInner` over a list whose labels are fresh appends it. -/
theorem foldlM_addInner_eq : ∀ (l s : Dims), (labels (s ++ l)).Nodup → (∀ p ∈ l, 0 ≤ p.2) →
    Dim.invalid ∉ labels l → l.foldlM (fun (s : Dims) p => addInner s p.1 p.2) s = .ok (s ++ l)
  | [], s, _, _, _ => by simp [pure, Except.pure]
  | p :: l, s, hn, h0, hi => by
    simp only [labels_cons, List.mem_cons, not_or] at hi
    have hp : p.1 ∉ labels s := by
      simp only [labels_append, labels_cons] at hn
      intro e
      exact (List.nodup_append.1 hn).2.2 _ e _ (by simp) rfl
    simp only [List.foldlM_cons, bind, Except.bind, addInner_eq hp (h0 p (by simp)) (Ne.symm hi.1)]
    rw [foldlM_addInner_eq l _ (by simpa using hn) (fun q hq => h0 q (List.mem_cons_of_mem _ hq)) hi.2]
    simp

theorem foldlM_addInner_ok : ∀ (l s s' : Dims), l.foldlM (fun (s : Dims) p => addInner s p.1 p.2) s = .ok s' →
    s' = s ++ l ∧ (∀ p ∈ l, 0 ≤ p.2) ∧ Dim.invalid ∉ labels l ∧ ((labels s).Nodup → (labels (s ++ l)).Nodup)
  | [], s, s', h => by
    simp [pure, Except.pure] at h; simp [h]
  | p :: l, s, s', h => by
    simp only [List.foldlM_cons, bind, Except.bind] at h
    split at h
    · simp at h
    rename_i r hr
    obtain ⟨rfl, h2, h3, h4⟩ := addInner_ok hr
    obtain ⟨h5, h6, h7, h8⟩ := foldlM_addInner_ok l _ s' h
    refine ⟨by simp [h5], ?_, by simp [h7, Ne.symm h4], ?_⟩
    · intro q hq
      rcases List.mem_cons.1 hq with hq | hq
      · exact hq ▸ h3
      · exact h6 q hq
    · intro hn
      have : (labels (s ++ [(p.1, p.2)])).Nodup := by
        simp only [labels_append, labels_cons, labels_nil]
        rw [List.nodup_append]
        refine ⟨hn, by simp, ?_⟩
        intro a ha b hb
        simp at hb; subst hb
        exact fun e => h2 (e ▸ ha)
      simpa using h8 this

end Dims
end Scipp
