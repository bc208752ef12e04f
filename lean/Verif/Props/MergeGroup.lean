import Verif.Model.MergeGroup
import Mathlib.Data.List.Basic
import Mathlib.Tactic.ByContra
/-!
C137: merging data groups.
-/
namespace Scipp.Props
open Scipp Scipp.MergeGroup

/-- Items in both groups are the same. -/
def c137Compatible {V : Type} (same : V → V → Bool) (lhs rhs : List (Nat × V)) : Prop := ∀ k v w, lhs.lookup k = some v → rhs.lookup k = some w → same v w = true

theorem mergeGroup_lookup_set {V : Type} (k j : Nat) (v : V) (l : List (Nat × V)) : (MergeGroup.setItem k v l).lookup j = if j = k then some v else l.lookup j := by
  induction l with
  | nil =>
    by_cases h : j = k
    · subst h; simp [MergeGroup.setItem]
    · have hb : (j == k) = false := by simpa using h
      simp [MergeGroup.setItem, List.lookup, h, hb]
  | cons p l ih =>
    obtain ⟨i, w⟩ := p
    by_cases hi : i = k
    · subst hi
      by_cases h : j = i
      · subst h; simp [MergeGroup.setItem]
      · have hb : (j == i) = false := by simpa using h
        simp [MergeGroup.setItem, List.lookup, h, hb]
    · rw [MergeGroup.setItem, if_neg hi]
      by_cases h : j = i
      · subst h
        simp [List.lookup, hi]
      · have hb : (j == i) = false := by simpa using h
        simp only [List.lookup, hb]
        exact ih

theorem mergeGroup_names_set {V : Type} (k : Nat) (v : V) (l : List (Nat × V)) : (MergeGroup.setItem k v l).map Prod.fst = if k ∈ l.map Prod.fst then l.map Prod.fst else l.map Prod.fst ++ [k] := by
  induction l with
  | nil => rfl
  | cons p l ih =>
    obtain ⟨i, w⟩ := p
    by_cases hi : i = k
    · subst hi
      simp [MergeGroup.setItem]
    · rw [MergeGroup.setItem, if_neg hi, List.map_cons, ih]
      by_cases hk : k ∈ l.map Prod.fst
      · rw [if_pos hk, if_pos (by rw [List.map_cons]; exact List.mem_cons_of_mem _ hk)]
        rfl
      · rw [if_neg hk, if_neg (by
          rw [List.map_cons, List.mem_cons, not_or]
          exact ⟨fun e => hi e.symm, hk⟩)]
        rfl

theorem mergeGroup_lookup_none {V : Type} (k : Nat) (l : List (Nat × V)) : l.lookup k = none ↔ k ∉ l.map Prod.fst := by
  induction l with
  | nil => simp
  | cons p l ih =>
    rw [List.map_cons, List.mem_cons, not_or]
    by_cases h : k = p.1
    · subst h; simp [List.lookup]
    · have hb : (k == p.1) = false := by simpa using h
      simp only [List.lookup, hb, ih]
      exact ⟨fun h' => ⟨h, h'⟩, fun h' => h'.2⟩

/-- **C137** The merged group has the items of both: those of the second where it has one, otherwise of the first. Names are those of the first, in its order, followed by new ones of the second in its order. -/
theorem C137_union {V : Type} (same : V → V → Bool) (rhs : List (Nat × V)) : ∀ (lhs r : List (Nat × V)), (rhs.map Prod.fst).Nodup → merge same lhs rhs = .ok r →
    (∀ k, r.lookup k = (rhs.lookup k).or (lhs.lookup k)) ∧ r.map Prod.fst = lhs.map Prod.fst ++ (rhs.map Prod.fst).filter (fun k => k ∉ lhs.map Prod.fst) := by
  unfold merge
  induction rhs with
  | nil =>
    intro lhs r _ h
    rw [← Except.ok.inj h]
    exact ⟨fun k => rfl, by simp⟩
  | cons p rhs ih =>
    intro lhs r hn h
    obtain ⟨k, v⟩ := p
    rw [List.map_cons, List.nodup_cons] at hn
    have hrest : mergeInto same (MergeGroup.setItem k v lhs) rhs = .ok r := by
      rw [mergeInto] at h
      split at h
      · split at h
        · exact h
        · cases h
      · exact h
    obtain ⟨h1, h2⟩ := ih _ r hn.2 hrest
    refine ⟨fun j => ?_, ?_⟩
    · rw [h1 j, mergeGroup_lookup_set]
      by_cases hj : j = k
      · subst hj
        rw [(mergeGroup_lookup_none j rhs).2 hn.1]
        simp [List.lookup]
      · have hb : (j == k) = false := by simpa using hj
        rw [if_neg hj]
        simp only [List.lookup, hb]
    · rw [h2, mergeGroup_names_set, List.map_cons]
      by_cases hk : k ∈ lhs.map Prod.fst
      · rw [if_pos hk, List.filter_cons_of_neg (by simpa using hk)]
      · rw [if_neg hk, List.filter_cons_of_pos (by simpa using hk), List.append_assoc]
        congr 1
        rw [List.singleton_append]
        congr 1
        apply List.filter_congr
        intro x hx
        have : x ≠ k := fun e => hn.1 (e ▸ hx)
        simp [this]

/-- **C137** It succeeds exactly if items in both are the same; otherwise it is an error of data sets. -/
theorem C137_succeeds {V : Type} (same : V → V → Bool) (rhs : List (Nat × V)) : ∀ (lhs : List (Nat × V)), (rhs.map Prod.fst).Nodup →
    (c137Compatible same lhs rhs → ∃ r, merge same lhs rhs = .ok r) ∧ (¬ c137Compatible same lhs rhs → merge same lhs rhs = .error .dataset) := by
  unfold merge
  induction rhs with
  | nil =>
    intro lhs _
    exact ⟨fun _ => ⟨lhs, rfl⟩, fun h => absurd (fun k v w _ hw => by simp at hw) h⟩
  | cons p rhs ih =>
    intro lhs hn
    obtain ⟨k, v⟩ := p
    rw [List.map_cons, List.nodup_cons] at hn
    obtain ⟨i1, i2⟩ := ih (MergeGroup.setItem k v lhs) hn.2
    have hrest : ∀ (hkv : ∀ w, lhs.lookup k = some w → same w v = true), (c137Compatible same lhs ((k, v) :: rhs) ↔ c137Compatible same (MergeGroup.setItem k v lhs) rhs) := by
      intro hkv
      constructor
      · intro h j a b ha hb
        have hj : j ≠ k := by
          rintro rfl
          rw [(mergeGroup_lookup_none j rhs).2 hn.1] at hb
          cases hb
        rw [mergeGroup_lookup_set, if_neg hj] at ha
        have hjb : (j == k) = false := by simpa using hj
        exact h j a b ha (by simp only [List.lookup, hjb]; exact hb)
      · intro h j a b ha hb
        by_cases hj : j = k
        · subst hj
          simp only [List.lookup, beq_self_eq_true] at hb
          cases hb
          exact hkv a ha
        · have hjb : (j == k) = false := by simpa using hj
          simp only [List.lookup, hjb] at hb
          exact h j a b (by rw [mergeGroup_lookup_set, if_neg hj]; exact ha) hb
    rw [mergeInto]
    cases hl : lhs.lookup k with
    | none =>
      simp only
      rw [hrest (fun w hw => by rw [hl] at hw; cases hw)]
      exact ⟨i1, i2⟩
    | some w =>
      simp only
      by_cases hs : same w v = true
      · rw [if_pos hs, hrest (fun w' hw => by rw [hl] at hw; cases hw; exact hs)]
        exact ⟨i1, i2⟩
      · rw [if_neg hs]
        refine ⟨fun h => absurd (h k w v hl (by simp [List.lookup])) hs, fun _ => rfl⟩

/-- **C137** If comparison is symmetric: whether groups can be merged does not depend on their order, and items of the results are the same. -/
theorem C137_commutes {V : Type} (same : V → V → Bool) (hs : ∀ a b, same a b = same b a) (lhs rhs r : List (Nat × V)) (h1 : (lhs.map Prod.fst).Nodup) (h2 : (rhs.map Prod.fst).Nodup) (h : merge same lhs rhs = .ok r) :
    ∃ s, merge same rhs lhs = .ok s ∧ ∀ k a b, r.lookup k = some a → s.lookup k = some b → a = b ∨ same a b = true := by
  have hc : c137Compatible same lhs rhs := by
    by_contra hn
    rw [(C137_succeeds same rhs lhs h2).2 hn] at h
    cases h
  obtain ⟨s, hms⟩ := (C137_succeeds same lhs rhs h1).1 (fun k v w hv hw => by rw [hs]; exact hc k w v hw hv)
  refine ⟨s, hms, fun k a b ha hb => ?_⟩
  rw [(C137_union same rhs lhs r h2 h).1 k] at ha
  rw [(C137_union same lhs rhs s h1 hms).1 k] at hb
  cases hl : lhs.lookup k with
  | none =>
    cases hr : rhs.lookup k with
    | none => rw [hl, hr] at ha; cases ha
    | some y =>
      rw [hl, hr] at ha hb
      cases ha; cases hb
      exact Or.inl rfl
  | some x =>
    cases hr : rhs.lookup k with
    | none =>
      rw [hl, hr] at ha hb
      cases ha; cases hb
      exact Or.inl rfl
    | some y =>
      rw [hl, hr] at ha hb
      cases ha; cases hb
      right
      rw [hs]
      exact hc k _ _ hl hr

/-- **C137** (partial: every item is the same as itself) Merging a group with itself gives that group. -/
theorem C137_self_partial {V : Type} (same : V → V → Bool) (l : List (Nat × V)) (hn : (l.map Prod.fst).Nodup) (hr : ∀ k v, l.lookup k = some v → same v v = true) :
    ∃ r, merge same l l = .ok r ∧ (∀ k, r.lookup k = l.lookup k) ∧ r.map Prod.fst = l.map Prod.fst := by
  obtain ⟨r, h⟩ := (C137_succeeds same l l hn).1 (fun k v w hv hw => by rw [hv] at hw; cases hw; exact hr k v hv)
  obtain ⟨h1, h2⟩ := C137_union same l l r hn h
  refine ⟨r, h, fun k => ?_, ?_⟩
  · rw [h1 k]
    cases l.lookup k <;> rfl
  · rw [h2, List.filter_eq_nil_iff.2 (by intro x hx; simpa using hx), List.append_nil]

/-! Cases. -/

theorem c137_merge : merge identicalValue [(1, some 4), (2, some 5)] [(3, some 6), (2, some 5)] = .ok [(1, some 4), (2, some 5), (3, some 6)] := by decide

theorem c137_symm (a b : Option Int) : identicalValue a b = identicalValue b a := by
  cases a <;> cases b <;> simp [identicalValue, eq_comm]

example := C137_union identicalValue [(3, some 6), (2, some 5)] [(1, some 4), (2, some 5)] _ (by decide) c137_merge

example := C137_commutes identicalValue c137_symm [(1, some 4), (2, some 5)] [(3, some 6), (2, some 5)] _ (by decide) (by decide) c137_merge

example : merge identicalValue [(1, some 4), (2, some 5)] [(3, some 6), (2, some 7)] = .error .dataset := by decide

example := (C137_succeeds identicalValue [(3, some 6), (2, some 7)] [(1, some 4), (2, some 5)] (by decide)).2 (fun h => absurd (h 2 (some 5) (some 7) rfl rfl) (by decide))

example := C137_self_partial identicalValue [(1, some 4)] (by decide) (by
  intro k v h
  by_cases hk : k = 1
  · subst hk
    cases h
    decide
  · have hb : (k == 1) = false := by simpa using hk
    simp [List.lookup, hb] at h)

/-- **C137** fails for NaN: a group with such an item cannot be merged with itself. -/
theorem C137_wrong_nan : merge identicalValue [(1, some 4), (2, none)] [(1, some 4), (2, none)] = .error .dataset := by decide

end Scipp.Props
