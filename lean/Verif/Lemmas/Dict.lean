import Verif.Spec.Dict
import Mathlib.Data.List.Induction
import Mathlib.Data.List.Nodup
namespace Scipp
variable {K V : Type} [DecidableEq K]
namespace Dict

theorem findIndex_le (k : K) : ∀ ks : List K, findIndex k ks ≤ ks.length
  | [] => by simp [findIndex]
  | a :: ks => by
    have := findIndex_le k ks
    simp only [findIndex, List.length_cons]
    split <;> omega

theorem findIndex_eq_length {k : K} : ∀ {ks : List K}, findIndex k ks = ks.length ↔ k ∉ ks
  | [] => by simp [findIndex]
  | a :: ks => by
    have := @findIndex_eq_length k ks
    simp only [findIndex, List.length_cons, List.mem_cons]
    by_cases h : a = k
    · simp [h]
    · rw [if_neg h]
      simp only [Nat.add_right_cancel_iff, this]
      constructor
      · rintro h' (rfl | h2)
        · exact h rfl
        · exact h' h2
      · intro h' h2
        exact h' (Or.inr h2)

theorem findIndex_append_self {k : K} : ∀ {ks : List K}, k ∉ ks → findIndex k (ks ++ [k]) = ks.length
  | [], _ => by simp [findIndex]
  | a :: ks, h => by
    simp only [List.mem_cons, not_or] at h
    simp only [List.cons_append, findIndex, if_neg (Ne.symm h.1), findIndex_append_self h.2, List.length_cons]

theorem findIndex_append_ne {k k' : K} (h : k' ≠ k) : ∀ {ks : List K}, k ∈ ks →
    findIndex k (ks ++ [k']) = findIndex k ks
  | [], hm => by simp at hm
  | a :: ks, hm => by
    simp only [List.cons_append, findIndex]
    split
    · rfl
    · next hne =>
      rw [findIndex_append_ne h]
      simp only [List.mem_cons] at hm
      rcases hm with rfl | hm
      · exact absurd rfl hne
      · exact hm

theorem getElem_findIndex {k : K} : ∀ {ks : List K}, k ∈ ks → ks[findIndex k ks]? = some k
  | [], hm => by simp at hm
  | a :: ks, hm => by
    simp only [findIndex]
    split
    · next h => simp [h]
    · next hne =>
      simp only [List.mem_cons] at hm
      rcases hm with rfl | hm
      · exact absurd rfl hne
      · simpa using getElem_findIndex hm

theorem eraseIdx_findIndex (k : K) : ∀ ks : List K, ks.eraseIdx (findIndex k ks) = ks.erase k
  | [] => by simp [findIndex]
  | a :: ks => by
    simp only [findIndex]
    by_cases h : a = k
    · simp [h]
    · simp only [if_neg h, List.eraseIdx_cons_succ, eraseIdx_findIndex k ks]
      rw [List.erase_cons_tail (by simpa using h)]

theorem lookup_erase {k k' : K} (h : k' ≠ k) : ∀ (ks : List K) (vs : List V), ks.length = vs.length →
    (vs.eraseIdx (findIndex k ks))[findIndex k' (ks.eraseIdx (findIndex k ks))]? = vs[findIndex k' ks]?
  | [], [], _ => by simp [findIndex]
  | a :: ks, v :: vs, hl => by
    have ih := lookup_erase h ks vs (by simpa using hl)
    by_cases h1 : a = k
    · have : a ≠ k' := fun h' => h (h'.symm.trans h1)
      simp [findIndex, h1, Ne.symm h]
    · by_cases h2 : a = k'
      · have e : findIndex k (k' :: ks) = findIndex k ks + 1 := by simp [findIndex, h]
        rw [h2, e, List.eraseIdx_cons_succ, List.eraseIdx_cons_succ]
        simp [findIndex]
      · have e : findIndex k (a :: ks) = findIndex k ks + 1 := by simp [findIndex, h1]
        have e' : ∀ l, findIndex k' (a :: l) = findIndex k' l + 1 := by intro l; simp [findIndex, h2]
        rw [e, List.eraseIdx_cons_succ, List.eraseIdx_cons_succ, e', e']
        simpa using ih

theorem findIndex_inj {k k' : K} {ks : List K} (h : k ∈ ks) (h' : k' ∈ ks)
    (e : findIndex k ks = findIndex k' ks) : k = k' := by
  have h1 := getElem_findIndex h
  have h2 := getElem_findIndex h'
  rw [e, h2] at h1
  exact (Option.some.inj h1).symm

end Dict

open Spec

theorem lastValue_append (k : K) (ops : List (DictOp K V)) (op : DictOp K V) :
    lastValue k (ops ++ [op]) = match op with
      | .insertOrAssign k' v => if k' = k then some v else lastValue k ops
      | .erase k' => if k' = k then none else lastValue k ops
      | .clear => none := by
  simp only [lastValue, List.foldl_append, List.foldl_cons, List.foldl_nil]
  cases op <;> rfl

theorem presentSince_aux (k : K) (ops : List (DictOp K V)) :
    (ops.foldl (sinceStep k) (0, none)).1 = ops.length := by
  induction ops using List.reverseRecOn with
  | nil => rfl
  | append_singleton l a ih =>
    simp only [List.foldl_append, List.foldl_cons, List.foldl_nil, List.length_append, List.length_singleton]
    cases a <;> simp [sinceStep, ih]

theorem presentSince_append (k : K) (ops : List (DictOp K V)) (op : DictOp K V) :
    presentSince k (ops ++ [op]) = match op with
      | .insertOrAssign k' _ => if k' = k then some ((presentSince k ops).getD ops.length) else presentSince k ops
      | .erase k' => if k' = k then none else presentSince k ops
      | .clear => none := by
  have h := presentSince_aux k ops
  simp only [presentSince, List.foldl_append, List.foldl_cons, List.foldl_nil]
  cases op <;> simp only [sinceStep, h]

/-- The invariant behind C16. -/
structure DictInv (ops : List (DictOp K V)) (d : Dict K V) : Prop where
  len : d.keys.length = d.values.length
  nodup : d.keys.Nodup
  lookup : ∀ k, d.values[Dict.findIndex k d.keys]? = lastValue k ops
  since : ∀ k, (presentSince k ops).isSome ↔ k ∈ d.keys
  bound : ∀ k t, presentSince k ops = some t → t < ops.length
  order : d.keys.Pairwise (fun a b => ∀ s t, presentSince a ops = some s → presentSince b ops = some t → s < t)

theorem dictInv_nil : DictInv ([] : List (DictOp K V)) Dict.empty where
  len := rfl
  nodup := List.nodup_nil
  lookup k := by simp [Dict.empty, lastValue]
  since k := by simp [Dict.empty, presentSince]
  bound k t h := by simp [presentSince] at h
  order := List.Pairwise.nil

theorem dictInv_step {ops : List (DictOp K V)} {d : Dict K V} (h : DictInv ops d) (op : DictOp K V) :
    ∃ d', op.apply d = .ok d' ∧ DictInv (ops ++ [op]) d' := by
  cases op with
  | clear =>
    refine ⟨_, rfl, ⟨rfl, List.nodup_nil, ?_, ?_, ?_, List.Pairwise.nil⟩⟩
    · intro k; simp [Dict.clear, lastValue_append]
    · intro k; simp [Dict.clear, presentSince_append]
    · intro k t ht; simp [presentSince_append] at ht
  | insertOrAssign k v =>
    by_cases hk : k ∈ d.keys
    · have hne : Dict.findIndex k d.keys ≠ d.keys.length := fun e => Dict.findIndex_eq_length.mp e hk
      have hlt : Dict.findIndex k d.keys < d.values.length := by
        have := Dict.findIndex_le k d.keys
        have := h.len
        omega
      refine ⟨⟨d.keys, d.values.set (Dict.findIndex k d.keys) v⟩, ?_, ⟨?_, h.nodup, ?_, ?_, ?_, ?_⟩⟩
      · simp [DictOp.apply, Dict.insertOrAssign, hne, hlt]
      · simpa using h.len
      · intro k'
        simp only [lastValue_append]
        by_cases e : k = k'
        · subst e; simp [hlt]
        · rw [if_neg e, ← h.lookup k']
          rw [List.getElem?_set_ne]
          intro e2
          by_cases hk' : k' ∈ d.keys
          · exact e (Dict.findIndex_inj hk hk' e2)
          · have := Dict.findIndex_eq_length.mpr hk'
            have := h.len
            omega
      · intro k'
        simp only [presentSince_append]
        by_cases e : k = k'
        · subst e; simpa using hk
        · rw [if_neg e]; exact h.since k'
      · intro k' t
        simp only [presentSince_append, List.length_append, List.length_singleton]
        by_cases e : k = k'
        · subst e
          obtain ⟨s, hs⟩ := Option.isSome_iff_exists.mp ((h.since k).mpr hk)
          rw [if_pos rfl, hs]
          intro ht
          have := h.bound k s hs
          simp at ht; omega
        · rw [if_neg e]
          intro ht
          have := h.bound k' t ht; omega
      · refine h.order.imp_of_mem ?_
        intro a b ha hb hab s t
        have key : ∀ k', k' ∈ d.keys → presentSince k' (ops ++ [.insertOrAssign k v]) = presentSince k' ops := by
          intro k' hk'
          simp only [presentSince_append]
          by_cases e : k = k'
          · subst e
            obtain ⟨s, hs⟩ := Option.isSome_iff_exists.mp ((h.since k).mpr hk)
            rw [if_pos rfl, hs]; rfl
          · rw [if_neg e]
        rw [key a ha, key b hb]
        exact hab s t
    · have heq : Dict.findIndex k d.keys = d.keys.length := Dict.findIndex_eq_length.mpr hk
      have hnone : presentSince k ops = none := by
        cases hp : presentSince k ops with
        | none => rfl
        | some t => exact absurd ((h.since k).mp (by simp [hp])) hk
      refine ⟨⟨d.keys ++ [k], d.values ++ [v]⟩, ?_, ⟨?_, ?_, ?_, ?_, ?_, ?_⟩⟩
      · simp [DictOp.apply, Dict.insertOrAssign, heq]
      · simpa using h.len
      · exact List.nodup_append.mpr ⟨h.nodup, by simp, by
          intro a ha b hb; simp at hb; subst hb; intro e; subst e; exact hk ha⟩
      · intro k'
        simp only [lastValue_append]
        by_cases e : k = k'
        · subst e
          rw [if_pos rfl, Dict.findIndex_append_self hk, h.len]; simp
        · rw [if_neg e, ← h.lookup k']
          by_cases hk' : k' ∈ d.keys
          · rw [Dict.findIndex_append_ne e hk', List.getElem?_append_left]
            have := Dict.findIndex_le k' d.keys
            have hne : Dict.findIndex k' d.keys ≠ d.keys.length := fun e => Dict.findIndex_eq_length.mp e hk'
            have := h.len
            omega
          · have e1 := Dict.findIndex_eq_length.mpr hk'
            have e2 : Dict.findIndex k' (d.keys ++ [k]) = (d.keys ++ [k]).length :=
              Dict.findIndex_eq_length.mpr (by simp [hk', Ne.symm e])
            have := h.len
            rw [e1, e2, List.getElem?_eq_none (by simp; omega), List.getElem?_eq_none (by omega)]
      · intro k'
        simp only [presentSince_append, List.mem_append, List.mem_singleton]
        by_cases e : k = k'
        · subst e; simp
        · rw [if_neg e, h.since k']; simp [Ne.symm e]
      · intro k' t
        simp only [presentSince_append, List.length_append, List.length_singleton]
        by_cases e : k = k'
        · subst e
          rw [if_pos rfl, hnone]
          intro ht
          simp at ht; omega
        · rw [if_neg e]
          intro ht
          have := h.bound k' t ht; omega
      · have key : ∀ k', k' ∈ d.keys → presentSince k' (ops ++ [.insertOrAssign k v]) = presentSince k' ops := by
          intro k' hk'
          simp only [presentSince_append]
          rw [if_neg]
          rintro rfl; exact hk hk'
        refine List.pairwise_append.mpr ⟨?_, List.pairwise_singleton _ _, ?_⟩
        · refine h.order.imp_of_mem ?_
          intro a b ha hb hab s t
          rw [key a ha, key b hb]
          exact hab s t
        · intro a ha b hb s t
          simp only [List.mem_singleton] at hb
          subst hb
          rw [key a ha]
          simp only [presentSince_append, if_true, hnone]
          intro hs ht
          have := h.bound a s hs
          simp at ht; omega
  | erase k =>
    by_cases hk : k ∈ d.keys
    · have hne : Dict.findIndex k d.keys ≠ d.keys.length := fun e => Dict.findIndex_eq_length.mp e hk
      have hlt : Dict.findIndex k d.keys < d.values.length := by
        have := Dict.findIndex_le k d.keys
        have := h.len
        omega
      have hmem : ∀ k', k' ∈ d.keys.erase k ↔ k' ≠ k ∧ k' ∈ d.keys := fun k' => h.nodup.mem_erase_iff
      refine ⟨⟨d.keys.eraseIdx (Dict.findIndex k d.keys), d.values.eraseIdx (Dict.findIndex k d.keys)⟩, ?_,
        ⟨?_, ?_, ?_, ?_, ?_, ?_⟩⟩
      · simp [DictOp.apply, Dict.erase, Dict.extract, Dict.expectFindIndex, hne, hlt, bind, Except.bind, pure,
          Except.pure]
      · have := h.len
        simp only [List.length_eraseIdx]
        rw [if_pos (by omega), if_pos hlt]; omega
      · simp only [Dict.eraseIdx_findIndex]; exact h.nodup.erase k
      · intro k'
        simp only [lastValue_append]
        by_cases e : k = k'
        · subst e
          have hnot : k ∉ d.keys.erase k := by rw [hmem]; simp
          rw [if_pos rfl]
          simp only [Dict.eraseIdx_findIndex]
          rw [Dict.findIndex_eq_length.mpr hnot]
          apply List.getElem?_eq_none
          have := h.len
          rw [List.length_erase_of_mem hk, List.length_eraseIdx, if_pos hlt]
          omega
        · rw [if_neg e, ← h.lookup k']
          exact Dict.lookup_erase (Ne.symm e) _ _ h.len
      · intro k'
        simp only [presentSince_append, Dict.eraseIdx_findIndex, hmem]
        by_cases e : k = k'
        · subst e; simp
        · rw [if_neg e, h.since]; simp [Ne.symm e]
      · intro k' t
        simp only [presentSince_append, List.length_append, List.length_singleton]
        split
        · simp
        · intro ht; have := h.bound k' t ht; omega
      · simp only [Dict.eraseIdx_findIndex]
        refine (h.order.sublist List.erase_sublist).imp_of_mem ?_
        intro a b ha hb hab s t
        simp only [presentSince_append]
        rw [if_neg (Ne.symm ((hmem a).mp ha).1), if_neg (Ne.symm ((hmem b).mp hb).1)]
        exact hab s t
    · have heq : Dict.findIndex k d.keys = d.keys.length := Dict.findIndex_eq_length.mpr hk
      refine ⟨d, ?_, ⟨h.len, h.nodup, ?_, ?_, ?_, ?_⟩⟩
      · simp [DictOp.apply, Dict.erase, Dict.extract, Dict.expectFindIndex, heq, bind, Except.bind]
      · intro k'
        simp only [lastValue_append]
        by_cases e : k = k'
        · subst e
          rw [if_pos rfl, heq, h.len]; simp
        · rw [if_neg e, h.lookup k']
      · intro k'
        simp only [presentSince_append]
        by_cases e : k = k'
        · subst e; simp [hk]
        · rw [if_neg e, h.since]
      · intro k' t
        simp only [presentSince_append, List.length_append, List.length_singleton]
        split
        · simp
        · intro ht; have := h.bound k' t ht; omega
      · refine h.order.imp_of_mem ?_
        intro a b ha hb hab s t
        simp only [presentSince_append]
        rw [if_neg (by rintro rfl; exact hk ha), if_neg (by rintro rfl; exact hk hb)]
        exact hab s t

theorem dictInv_run (ops : List (DictOp K V)) : ∃ d, DictOp.run ops = .ok d ∧ DictInv ops d := by
  induction ops using List.reverseRecOn with
  | nil => exact ⟨_, rfl, dictInv_nil⟩
  | append_singleton l a ih =>
    obtain ⟨d, hd, hi⟩ := ih
    obtain ⟨d', hd', hi'⟩ := dictInv_step hi a
    refine ⟨d', ?_, hi'⟩
    simp only [DictOp.run] at hd ⊢
    rw [List.foldlM_append, hd]
    simp [bind, Except.bind, hd', pure, Except.pure]

end Scipp
