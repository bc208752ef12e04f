import Verif.Spec.SizedDict
import Verif.Lemmas.View2
import Verif.Props.View
/-! Lemmas about dictionaries of coords and masks. -/
namespace Scipp
open Sizes

theorem mem_erase_iff : ∀ {s s' : Sizes} {d : Dim}, (labels s).Nodup → Sizes.erase s d = .ok s' →
    ∀ p, p ∈ s' ↔ p ∈ s ∧ p.1 ≠ d
  | [], _, _, _, h => by simp [Sizes.erase] at h
  | (k, v) :: s, s', d, hn, h => by
    simp only [labels_cons, List.nodup_cons] at hn
    simp only [Sizes.erase] at h
    intro p
    split at h
    · rename_i hk
      simp only [Except.ok.injEq] at h
      subst h hk
      constructor
      · intro hp
        refine ⟨List.mem_cons_of_mem _ hp, ?_⟩
        intro e
        exact hn.1 (e ▸ mem_labels hp)
      · rintro ⟨hp, hne⟩
        rcases List.mem_cons.1 hp with hp | hp
        · exact absurd (by rw [hp]) hne
        · exact hp
    · rename_i hk
      cases hr : Sizes.erase s d with
      | error e => simp [hr, Except.map] at h
      | ok t =>
        simp only [hr, Except.map, Except.ok.injEq] at h
        subst h
        have ih := mem_erase_iff hn.2 hr p
        simp only [List.mem_cons, ih]
        constructor
        · rintro (h | h)
          · exact ⟨.inl h, by rw [h]; exact hk⟩
          · exact ⟨.inr h.1, h.2⟩
        · rintro ⟨h | h, hne⟩
          · exact .inl h
          · exact .inr ⟨h, hne⟩

theorem mem_assign_iff : ∀ {s s' : Sizes} {d : Dim} {x : Int}, (labels s).Nodup → Sizes.assign s d x = .ok s' →
    ∀ p, p ∈ s' ↔ (p ∈ s ∧ p.1 ≠ d) ∨ p = (d, x)
  | [], _, _, _, _, h => by simp [Sizes.assign] at h
  | (k, v) :: s, s', d, x, hn, h => by
    simp only [labels_cons, List.nodup_cons] at hn
    simp only [Sizes.assign] at h
    intro p
    split at h
    · rename_i hk
      simp only [Except.ok.injEq] at h
      subst h hk
      simp only [List.mem_cons]
      constructor
      · rintro (h | h)
        · exact .inr h
        · exact .inl ⟨.inr h, fun e => hn.1 (e ▸ mem_labels h)⟩
      · rintro (⟨h | h, hne⟩ | h)
        · exact absurd (by rw [h]) hne
        · exact .inr h
        · exact .inl h
    · rename_i hk
      cases hr : Sizes.assign s d x with
      | error e => simp [hr, Except.map] at h
      | ok t =>
        simp only [hr, Except.map, Except.ok.injEq] at h
        subst h
        have ih := mem_assign_iff hn.2 hr p
        simp only [List.mem_cons, ih]
        constructor
        · rintro (h | h | h)
          · exact .inl ⟨.inl h, by rw [h]; exact hk⟩
          · exact .inl ⟨.inr h.1, h.2⟩
          · exact .inr h
        · rintro (⟨h | h, hne⟩ | h)
          · exact .inl h
          · exact .inr (.inl ⟨h, hne⟩)
          · exact .inr (.inr h)

theorem mem_setKey_iff : ∀ {s s' : Sizes} {f t : Dim}, (labels s).Nodup → Sizes.setKey s f t = .ok s' →
    ∀ p, p ∈ s' ↔ (p ∈ s ∧ p.1 ≠ f) ∨ ((f, p.2) ∈ s ∧ p.1 = t)
  | [], _, _, _, _, h => by simp [Sizes.setKey] at h
  | (k, v) :: s, s', f, t, hn, h => by
    simp only [labels_cons, List.nodup_cons] at hn
    simp only [Sizes.setKey] at h
    intro p
    split at h
    · rename_i hk
      simp only [Except.ok.injEq] at h
      subst h hk
      simp only [List.mem_cons, Prod.mk.injEq, true_and]
      constructor
      · rintro (h | h)
        · exact .inr ⟨.inl (by rw [h]), by rw [h]⟩
        · exact .inl ⟨.inr h, fun e => hn.1 (e ▸ mem_labels h)⟩
      · rintro (⟨h | h, hne⟩ | ⟨h | h, ht⟩)
        · exact absurd (by rw [h]) hne
        · exact .inr h
        · exact .inl (Prod.ext ht h)
        · exact absurd (mem_labels h) hn.1
    · rename_i hk
      cases hr : Sizes.setKey s f t with
      | error e => simp [hr, Except.map] at h
      | ok w =>
        simp only [hr, Except.map, Except.ok.injEq] at h
        subst h
        have ih := mem_setKey_iff hn.2 hr p
        have hk' : ¬ f = k := fun e => hk e.symm
        simp only [List.mem_cons, ih, Prod.mk.injEq, hk', false_and, false_or]
        constructor
        · rintro (h | h | h)
          · exact .inl ⟨.inl h, by rw [h]; exact hk⟩
          · exact .inl ⟨.inr h.1, h.2⟩
          · exact .inr h
        · rintro (⟨h | h, hne⟩ | h)
          · exact .inl h
          · exact .inr (.inl ⟨h, hne⟩)
          · exact .inr (.inr h)

theorem mem_unique {s : Sizes} (hn : (labels s).Nodup) {d : Dim} {m n : Int} (h : (d, m) ∈ s) (h' : (d, n) ∈ s) :
    m = n := by
  have h1 := at?_of_mem hn h
  rw [at?_of_mem hn h'] at h1
  simpa using h1.symm

/-- What `SizedDict::set` accepts fits. -/
theorem fits_of_reduce {sizes : Sizes} {dims : Dims} (hs : WF sizes) (hd : WF dims) :
    ∀ (ls : List Dim) (dims' : Dims), reduceEdges sizes ls dims = .ok dims' → Sizes.includes sizes dims' = true →
      Fits sizes dims
  | [], dims', h, hi => by
    simp only [reduceEdges, Except.ok.injEq] at h
    subst h
    rw [includes_iff hs.1 hd.1] at hi
    exact ⟨0, fun d n hm _ => hi _ hm, fun n hm => .inl (hi _ hm)⟩
  | l :: ls, dims', h, hi => by
    simp only [reduceEdges] at h
    cases hn : at? dims l with
    | error e => rw [hn] at h; simp at h
    | ok n =>
      rw [hn] at h
      dsimp only at h
      by_cases hc : Sizes.contains sizes l = false ∧ n = 2
      · rw [if_pos hc] at h
        have hm := mem_erase_iff hd.1 h
        rw [includes_iff hs.1 (erase_WF h hd).1] at hi
        refine ⟨l, fun d k hk hne => hi _ ((hm _).2 ⟨hk, hne⟩), fun k hk => .inr (.inr ⟨contains_false.1 hc.1, ?_⟩)⟩
        rw [mem_unique hd.1 hk (at?_ok_mem hn)]; exact hc.2
      · rw [if_neg hc] at h
        cases hmm : at? sizes l with
        | error e => rw [hmm] at h; simp at h
        | ok m =>
          rw [hmm] at h
          dsimp only at h
          by_cases he : n = m + 1
          · rw [if_pos he] at h
            have hw := resize_WF h hd
            have h' : Sizes.assign dims l m = .ok dims' := by
              simp only [Sizes.resize] at h
              split at h
              · simp at h
              · exact h
            have hmem := mem_assign_iff hd.1 h'
            rw [includes_iff hs.1 hw.1] at hi
            refine ⟨l, fun d k hk hne => hi _ ((hmem _).2 (.inl ⟨hk, hne⟩)), fun k hk => .inr (.inl ⟨m, at?_ok_mem hmm, ?_⟩)⟩
            rw [mem_unique hd.1 hk (at?_ok_mem hn)]; exact he
          · rw [if_neg he] at h
            exact fits_of_reduce hs hd ls dims' h hi

/-- What fits is accepted. -/
theorem reduce_of_fits {sizes : Sizes} {dims : Dims} {e : Dim} (hs : WF sizes) (hd : WF dims)
    (h1 : ∀ d n, (d, n) ∈ dims → d ≠ e → (d, n) ∈ sizes)
    (h2 : ∀ n, (e, n) ∈ dims → (e, n) ∈ sizes ∨ (∃ m, (e, m) ∈ sizes ∧ n = m + 1) ∨ (e ∉ labels sizes ∧ n = 2)) :
    ∀ (ls : List Dim), (∀ d ∈ ls, d ∈ labels dims) → (e ∈ ls ∨ ∀ p ∈ dims, p ∈ sizes) →
      ∃ dims', reduceEdges sizes ls dims = .ok dims' ∧ Sizes.includes sizes dims' = true
  | [], _, hor => by
    refine ⟨dims, rfl, ?_⟩
    rw [includes_iff hs.1 hd.1]
    exact hor.resolve_left (by simp)
  | l :: ls, hl, hor => by
    obtain ⟨n, hn⟩ := at?_ok_of_mem_labels (hl l (by simp))
    have hmn := at?_ok_mem hn
    by_cases hin : (l, n) ∈ sizes
    · have hsz := at?_of_mem hs.1 hin
      have hc : Sizes.contains sizes l = true := contains_iff.2 (mem_labels hin)
      obtain ⟨dims', h3, h4⟩ := reduce_of_fits hs hd h1 h2 ls (fun d hd' => hl d (by simp [hd'])) (by
        by_cases hle : l = e
        · right
          intro p hp
          by_cases hpe : p.1 = e
          · have : p.2 = n := mem_unique hd.1 (d := l) (by rw [hle, ← hpe]; exact hp) hmn
            have hp' : p = (l, n) := Prod.ext (hpe.trans hle.symm) this
            rw [hp']; exact hin
          · exact h1 p.1 p.2 hp hpe
        · rcases hor with hor | hor
          · exact .inl ((List.mem_cons.1 hor).resolve_left (fun e' => hle e'.symm))
          · exact .inr hor)
      refine ⟨dims', ?_, h4⟩
      simp only [reduceEdges, hn, hsz, hc, Bool.true_eq_false, false_and, if_false]
      rw [if_neg (by omega)]; exact h3
    · have hle : l = e := by
        by_contra hne
        exact hin (h1 l n hmn hne)
      subst hle
      rcases h2 n hmn with h | ⟨m, hm, he⟩ | ⟨hx, h2'⟩
      · exact absurd h hin
      · have hsz := at?_of_mem hs.1 hm
        have hc : Sizes.contains sizes l = true := contains_iff.2 (mem_labels hm)
        have hm0 : 0 ≤ m := hs.2 _ hm
        have : ∃ t, Sizes.assign dims l m = .ok t := by
          have hlm := mem_labels hmn
          clear hn hmn h1 h2 hin hor hl hd
          induction dims with
          | nil => simp at hlm
          | cons q s ih =>
            obtain ⟨k, v⟩ := q
            simp only [Sizes.assign]
            by_cases hk : k = l
            · simp [hk]
            · simp only [labels_cons, List.mem_cons] at hlm
              obtain ⟨t, ht⟩ := ih (hlm.resolve_left (fun e => hk e.symm))
              simp [hk, ht, Except.map]
        obtain ⟨t, ht⟩ := this
        have hr : Sizes.resize dims l m = .ok t := by simp [Sizes.resize, ht]; omega
        refine ⟨t, ?_, ?_⟩
        · simp only [reduceEdges, hn, hsz, hc, Bool.true_eq_false, false_and, if_false]
          rw [if_pos he]; exact hr
        · rw [includes_iff hs.1 (resize_WF hr hd).1]
          intro p hp
          rcases (mem_assign_iff hd.1 ht p).1 hp with ⟨hp1, hp2⟩ | hp
          · exact h1 p.1 p.2 hp1 hp2
          · rw [hp]; exact hm
      · have hc : Sizes.contains sizes l = false := contains_false.2 hx
        have : ∃ t, Sizes.erase dims l = .ok t := by
          have hlm := mem_labels hmn
          clear hn hmn h1 h2 hin hor hl hd
          induction dims with
          | nil => simp at hlm
          | cons q s ih =>
            obtain ⟨k, v⟩ := q
            simp only [Sizes.erase]
            by_cases hk : k = l
            · simp [hk]
            · simp only [labels_cons, List.mem_cons] at hlm
              obtain ⟨t, ht⟩ := ih (hlm.resolve_left (fun e => hk e.symm))
              simp [hk, ht, Except.map]
        obtain ⟨t, ht⟩ := this
        refine ⟨t, ?_, ?_⟩
        · simp only [reduceEdges, hn, hc, h2', and_self, if_true]; exact ht
        · rw [includes_iff hs.1 (erase_WF ht hd).1]
          intro p hp
          obtain ⟨hp1, hp2⟩ := (mem_erase_iff hd.1 ht p).1 hp
          exact h1 p.1 p.2 hp1 hp2

/-- `SizedDict::set` accepts exactly what fits. -/
theorem reduce_iff_fits {sizes : Sizes} {dims : Dims} (hs : WF sizes) (hd : WF dims) :
    (∃ dims', reduceEdges sizes (labels dims) dims = .ok dims' ∧ Sizes.includes sizes dims' = true) ↔
      Fits sizes dims := by
  constructor
  · rintro ⟨dims', h, hi⟩; exact fits_of_reduce hs hd _ _ h hi
  · rintro ⟨e, h1, h2⟩
    refine reduce_of_fits hs hd h1 h2 _ (fun _ h => h) ?_
    by_cases he : e ∈ labels dims
    · exact .inl he
    · right
      intro p hp
      refine h1 p.1 p.2 hp ?_
      intro e'
      exact he (e' ▸ mem_labels hp)

/-! ### Association lists -/

theorem lookup_mem {α : Type} : ∀ {l : List (Dim × α)} {k : Dim} {e : α}, lookupEntry l k = some e → (k, e) ∈ l
  | [], _, _, h => by simp [lookupEntry] at h
  | (k', e') :: l, k, e, h => by
    simp only [lookupEntry] at h
    split at h
    · rename_i hk
      simp only [Option.some.injEq] at h
      subst h hk; simp
    · exact List.mem_cons_of_mem _ (lookup_mem h)

theorem lookup_none {α : Type} : ∀ {l : List (Dim × α)} {k : Dim}, lookupEntry l k = none ↔ k ∉ l.map Prod.fst
  | [], _ => by simp [lookupEntry]
  | (k', e') :: l, k => by
    simp only [lookupEntry]
    by_cases hk : k' = k
    · simp [hk]
    · rw [if_neg hk, lookup_none]
      simp only [List.map_cons, List.mem_cons, not_or]
      exact ⟨fun h => ⟨fun e => hk e.symm, h⟩, fun h => h.2⟩

theorem lookup_of_mem {α : Type} : ∀ {l : List (Dim × α)} {k : Dim} {e : α}, (l.map Prod.fst).Nodup → (k, e) ∈ l →
    lookupEntry l k = some e
  | [], _, _, _, h => by simp at h
  | (k', e') :: l, k, e, hn, h => by
    simp only [List.map_cons, List.nodup_cons] at hn
    simp only [lookupEntry]
    rcases List.mem_cons.1 h with h | h
    · simp only [Prod.mk.injEq] at h
      simp [h.1, h.2]
    · have : k' ≠ k := fun e => hn.1 (e ▸ List.mem_map_of_mem (f := Prod.fst) h)
      rw [if_neg this]; exact lookup_of_mem hn.2 h

theorem insert_keys {α : Type} : ∀ (l : List (Dim × α)) (k : Dim) (e : α),
    (insertEntry l k e).map Prod.fst = if k ∈ l.map Prod.fst then l.map Prod.fst else l.map Prod.fst ++ [k]
  | [], k, e => by simp [insertEntry]
  | (k', e') :: l, k, e => by
    simp only [insertEntry]
    by_cases hk : k' = k
    · simp [hk]
    · rw [if_neg hk, List.map_cons, insert_keys l k e]
      have hk' : ¬ k = k' := fun e => hk e.symm
      by_cases hm : k ∈ l.map Prod.fst
      · rw [if_pos hm, if_pos (by simp [hm] : k ∈ List.map Prod.fst ((k', e') :: l))]; rfl
      · rw [if_neg hm, if_neg (by
          rw [List.map_cons, List.mem_cons, not_or]; exact ⟨hk', hm⟩)]; rfl

theorem insert_nodup {α : Type} {l : List (Dim × α)} (h : (l.map Prod.fst).Nodup) (k : Dim) (e : α) :
    ((insertEntry l k e).map Prod.fst).Nodup := by
  rw [insert_keys]
  split
  · exact h
  · rename_i hk
    rw [List.nodup_append]
    refine ⟨h, by simp, ?_⟩
    intro a ha b hb
    simp only [List.mem_singleton] at hb
    subst hb
    intro e'
    exact hk (e' ▸ ha)

theorem lookup_insert {α : Type} : ∀ (l : List (Dim × α)) (k k' : Dim) (e : α),
    lookupEntry (insertEntry l k e) k' = if k' = k then some e else lookupEntry l k'
  | [], k, k', e => by
    simp only [insertEntry, lookupEntry]
    by_cases h : k' = k
    · simp [h]
    · rw [if_neg h, if_neg (fun e => h e.symm)]
  | (a, x) :: l, k, k', e => by
    simp only [insertEntry]
    by_cases ha : a = k
    · subst ha
      simp only [lookupEntry, if_true]
      by_cases h : k' = a
      · simp [h]
      · rw [if_neg (fun e => h e.symm), if_neg h, if_neg (fun e => h e.symm)]
    · rw [if_neg ha]
      simp only [lookupEntry]
      rw [lookup_insert l k k' e]
      by_cases h : a = k'
      · subst h; simp [ha]
      · simp [h]

theorem mem_insert {α : Type} {l : List (Dim × α)} {k : Dim} {e : α} {p : Dim × α}
    (h : p ∈ insertEntry l k e) : p ∈ l ∨ p = (k, e) := by
  induction l with
  | nil => simp [insertEntry] at h; exact .inr h
  | cons q l ih =>
    obtain ⟨a, x⟩ := q
    simp only [insertEntry] at h
    split at h
    · rename_i hk
      rcases List.mem_cons.1 h with h | h
      · right; rw [h, hk]
      · exact .inl (List.mem_cons_of_mem _ h)
    · rcases List.mem_cons.1 h with h | h
      · exact .inl (by simp [h])
      · rcases ih h with h | h
        · exact .inl (List.mem_cons_of_mem _ h)
        · exact .inr h

theorem eraseEntry_sublist {α : Type} (l : List (Dim × α)) (k : Dim) : (eraseEntry l k).Sublist l := by
  induction l with
  | nil => exact List.Sublist.refl _
  | cons q l ih =>
    simp only [eraseEntry]
    split
    · exact List.sublist_cons_self _ _
    · exact ih.cons_cons _

theorem insert_append {α : Type} {l : List (Dim × α)} {k : Dim} {e : α} (h : k ∉ l.map Prod.fst) :
    insertEntry l k e = l ++ [(k, e)] := by
  induction l with
  | nil => rfl
  | cons q l ih =>
    simp only [List.map_cons, List.mem_cons, not_or] at h
    simp only [insertEntry]
    rw [if_neg (fun e => h.1 e.symm), ih h.2]; rfl

/-! ### Operations of the dictionary -/

/-- An entry that may be in a dictionary with these sizes. -/
def EntryOk (sizes : Sizes) (e : Entry) : Prop := e.view.WF ∧ e.binned = false ∧ Fits sizes e.dims

theorem insert_iff {d : SizedDict} {key : Dim} {e : Entry} (hs : WF d.sizes) (hr : d.readonly = false) (hw : e.view.WF) :
    (∃ d', d.insert key e = .ok d') ↔ (e.binned = false ∧ Fits d.sizes e.dims) := by
  unfold SizedDict.insert
  rw [hr, if_neg (by decide)]
  cases hb : e.binned with
  | true => simp
  | false =>
    rw [if_neg (by decide), ← reduce_iff_fits hs hw.1]
    constructor
    · rintro ⟨d', h⟩
      split at h
      · simp at h
      · rename_i dims hd
        split at h
        · rename_i hi; exact ⟨rfl, dims, hd, hi⟩
        · simp at h
    · rintro ⟨-, dims, h1, h2⟩
      refine ⟨{ d with items := insertEntry d.items key e }, ?_⟩
      have h1' : reduceEdges d.sizes (labels e.dims) e.dims = .ok dims := h1
      rw [h1']; dsimp only; rw [if_pos h2, hr]

theorem insert_ok {d d' : SizedDict} {key : Dim} {e : Entry} (h : d.insert key e = .ok d') :
    d.readonly = false ∧ d' = { d with items := insertEntry d.items key e } := by
  unfold SizedDict.insert at h
  split at h
  · simp at h
  · rename_i hr
    split at h
    · simp at h
    · split at h
      · simp at h
      · split at h
        · simp only [Except.ok.injEq] at h
          exact ⟨by simpa using hr, h.symm⟩
        · simp at h

theorem set_Ok {d d' : SizedDict} {key : Dim} {e : Entry} (hd : d.Ok) (hw : e.view.WF)
    (h : d.set key e = .ok d') : d'.Ok ∧ d'.sizes = d.sizes ∧ (d'.readonly = d.readonly) := by
  have hins : ∀ d', d.insert key e = .ok d' → d'.Ok ∧ d'.sizes = d.sizes ∧ (d'.readonly = d.readonly) := by
    intro d' h
    obtain ⟨hr, rfl⟩ := insert_ok h
    obtain ⟨hb, hf⟩ := (insert_iff hd.1 hr hw).1 ⟨_, h⟩
    refine ⟨⟨hd.1, insert_nodup hd.2.1 _ _, ?_⟩, rfl, rfl⟩
    intro p hp
    rcases mem_insert hp with hp | rfl
    · exact hd.2.2 p hp
    · exact ⟨hw, hb, hf⟩
  unfold SizedDict.set at h
  split at h
  · split at h
    · simp only [Except.ok.injEq] at h; subst h; exact ⟨hd, rfl, rfl⟩
    · exact hins _ h
  · exact hins _ h

theorem foldlM_Ok {f : SizedDict → Dim × Entry → Except Err SizedDict} {P : SizedDict → Prop} {Q : Dim × Entry → Prop}
    (hf : ∀ d p d', P d → Q p → f d p = .ok d' → P d') :
    ∀ (l : List (Dim × Entry)) (d d' : SizedDict), P d → (∀ p ∈ l, Q p) → l.foldlM f d = .ok d' → P d'
  | [], d, d', hd, _, h => by
    simp only [List.foldlM_nil, pure, Except.pure, Except.ok.injEq] at h
    exact h ▸ hd
  | p :: l, d, d', hd, hl, h => by
    rw [List.foldlM_cons] at h
    cases hp : f d p with
    | error e => rw [hp] at h; simp [bind, Except.bind] at h
    | ok d1 =>
      rw [hp] at h
      exact foldlM_Ok hf l d1 d' (hf _ _ _ hd (hl p (by simp)) hp) (fun q hq => hl q (by simp [hq])) h

theorem ofItems_Ok {sizes : Sizes} {items : List (Dim × Entry)} {ro : Bool} {d : SizedDict} (hs : WF sizes)
    (hi : ∀ p ∈ items, p.2.view.WF) (h : SizedDict.ofItems sizes items ro = .ok d) : d.Ok ∧ d.sizes = sizes := by
  unfold SizedDict.ofItems at h
  split at h
  · simp at h
  · rename_i d1 h1
    have := foldlM_Ok (P := fun d => d.Ok ∧ d.sizes = sizes) (Q := fun p => p.2.view.WF)
      (fun d p d' hd hp h => by
        obtain ⟨k1, k2, _⟩ := set_Ok hd.1 hp h
        exact ⟨k1, k2.trans hd.2⟩) items ⟨sizes, [], false⟩ d1 ⟨⟨hs, by simp, by simp⟩, rfl⟩ hi h1
    simp only [Except.ok.injEq] at h
    subst h
    exact this

/-- With different keys, everything that fits is accepted in the order given. -/
theorem ofItems_exists {sizes : Sizes} {ro : Bool} (hs : WF sizes) (items : List (Dim × Entry))
    (hn : (items.map Prod.fst).Nodup) (hi : ∀ p ∈ items, EntryOk sizes p.2) :
    SizedDict.ofItems sizes items ro = .ok ⟨sizes, items, ro⟩ := by
  have : ∀ (l acc : List (Dim × Entry)), ((acc ++ l).map Prod.fst).Nodup → (∀ p ∈ l, EntryOk sizes p.2) →
      l.foldlM SizedDict.setItem ⟨sizes, acc, false⟩ = .ok ⟨sizes, acc ++ l, false⟩ := by
    intro l
    induction l with
    | nil => intro acc _ _; simp [pure, Except.pure]
    | cons p l ih =>
      intro acc hn hl
      have hk : p.1 ∉ acc.map Prod.fst := by
        rw [List.map_append, List.nodup_append] at hn
        intro hm
        exact hn.2.2 _ hm p.1 (by simp) rfl
      have h1 : SizedDict.setItem ⟨sizes, acc, false⟩ p = .ok ⟨sizes, acc ++ [p], false⟩ := by
        obtain ⟨w1, w2, w3⟩ := hl p (by simp)
        obtain ⟨d', hd'⟩ := (insert_iff (d := ⟨sizes, acc, false⟩) (key := p.1) hs rfl w1).2 ⟨w2, w3⟩
        have := (insert_ok hd').2
        rw [this, insert_append hk] at hd'
        simp only [SizedDict.setItem, SizedDict.set, lookup_none.2 hk]
        exact hd'
      rw [List.foldlM_cons, h1]
      have := ih (acc ++ [p]) (by simpa using hn) (fun q hq => hl q (by simp [hq]))
      simpa [bind, Except.bind] using this
  unfold SizedDict.ofItems
  rw [this items [] (by simpa using hn) hi]
  simp

/-! ### Slicing -/

theorem View.slice_wf {v v' : View} {p : Slice} (hw : v.WF) (hp : p.Constructed) (h : v.slice p = .ok v') : v'.WF := by
  obtain ⟨d, b, e, st⟩ := p
  obtain ⟨h0, hst, hse⟩ := hp.spec
  simp only at h0 hst hse
  obtain ⟨n, hm, hle⟩ := (Props.C04_slice_accepts_iff v _ hw hp).1.1 ⟨v', h⟩
  simp only at hm hle
  obtain ⟨pre, n', post, spre, x, spost, hv', h1, h2, h3⟩ := View.split hw.2.1 (mem_labels hm)
  have hnd : (labels (pre ++ (d, n') :: post)).Nodup := by have := hw.1.1; rw [hv'] at this; exact this
  have hn' : n' = n := by
    have := at?_of_mem hw.1.1 hm
    rw [hv'] at this
    simp only [at?_mid h1] at this
    injection this
  subst hn'
  have hlen := hw.2.1
  have hpos := hw.2.2
  have hdn := hw.1.2
  rw [hv'] at hlen hpos hdn h
  simp only [List.length_append, List.length_cons] at hlen
  by_cases he : e = -1
  · subst he
    rw [if_pos rfl] at hle
    rw [View.slice_point_eq h1 h2 h0 hle] at h
    injection h with h
    subst h
    refine ⟨⟨?_, ?_⟩, ?_, ?_⟩
    · simp only [labels_append, labels_cons] at hnd ⊢
      exact (List.nodup_middle.1 hnd |> List.nodup_cons.1).2
    · intro p hp
      apply hdn
      simp only [List.mem_append, List.mem_cons] at hp ⊢; tauto
    · simp only [List.length_append]; omega
    · intro s hs
      apply hpos
      simp only [List.mem_append, List.mem_cons] at hs ⊢; tauto
  · rw [if_neg he] at hle
    have hbe := hse.resolve_left he
    rw [View.slice_range_eq h1 h2 h0 hbe hst hle] at h
    injection h with h
    subst h
    refine ⟨⟨by simpa using hnd, ?_⟩, ?_, ?_⟩
    · intro p hp
      simp only [List.mem_append, List.mem_cons] at hp
      rcases hp with hp | rfl | hp
      · exact hdn p (by simp [hp])
      · exact (sliceExtent_spec hst hbe).1
      · exact hdn p (by simp [hp])
    · simp only [List.length_append, List.length_cons]; omega
    · intro s hs
      simp only [List.mem_append, List.mem_cons] at hs
      rcases hs with hs | rfl | hs
      · exact hpos s (by simp [hs])
      · have := hpos x (by simp)
        positivity
      · exact hpos s (by simp [hs])

theorem View.slice_dims {v v' : View} {p : Slice} (h : v.slice p = .ok v') : Sizes.slice v.dims p = .ok v'.dims := by
  have hv := View.slice_ok_valid h
  unfold View.slice at h
  unfold Sizes.slice
  rw [hv] at h ⊢
  simp only [bind, Except.bind] at h ⊢
  by_cases hp : p = Slice.none
  · rw [if_pos hp] at h ⊢
    injection h with h; rw [h]
  · rw [if_neg hp] at h ⊢
    split at h
    · simp at h
    · by_cases hs : p.stop = -1
      · rw [if_pos hs] at h
        rw [if_neg (by simp [Slice.isRange, hs])]
        split at h
        · simp at h
        · rename_i dims hd
          injection h with h
          rw [hd, ← h]
      · rw [if_neg hs] at h
        rw [if_pos (by simp [Slice.isRange, hs])]
        split at h
        · simp at h
        · rename_i dims hd
          injection h with h
          unfold Sizes.slice at hd
          rw [hv] at hd
          simp only [bind, Except.bind] at hd
          rw [if_neg hp, if_pos (by simp [Slice.isRange, hs])] at hd
          rw [hd, ← h]

/-- Content of sliced sizes. -/
theorem mem_slice_range {s s' : Sizes} {d : Dim} {b e st : Int} (hn : (labels s).Nodup) (he : e ≠ -1)
    (h : Sizes.slice s ⟨d, b, e, st⟩ = .ok s') (hne : (⟨d, b, e, st⟩ : Slice) ≠ Slice.none) :
    d ∈ labels s ∧ ∀ p, p ∈ s' ↔ (p ∈ s ∧ p.1 ≠ d) ∨ p = (d, sliceExtent b e st) := by
  unfold Sizes.slice at h
  simp only [bind, Except.bind] at h
  split at h
  · simp at h
  · rw [if_neg hne, if_pos (by simp [Slice.isRange, he])] at h
    simp only [Sizes.resize] at h
    split at h
    · simp at h
    · exact ⟨(assign_ok h).2.2, mem_assign_iff hn h⟩

theorem mem_slice_point {s s' : Sizes} {d : Dim} {b st : Int} (hn : (labels s).Nodup)
    (h : Sizes.slice s ⟨d, b, -1, st⟩ = .ok s') (hne : (⟨d, b, -1, st⟩ : Slice) ≠ Slice.none) :
    d ∈ labels s ∧ ∀ p, p ∈ s' ↔ p ∈ s ∧ p.1 ≠ d := by
  unfold Sizes.slice at h
  simp only [bind, Except.bind] at h
  split at h
  · simp at h
  · rw [if_neg hne, if_neg (by simp [Slice.isRange])] at h
    exact ⟨(erase_ok h).2, mem_erase_iff hn h⟩

theorem sliceExtent_one {b e : Int} (h : b ≤ e) : sliceExtent b e 1 = e - b := by
  simp [sliceExtent]; omega

end Scipp
