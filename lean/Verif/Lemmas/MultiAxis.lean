import Verif.Spec.MultiAxis
import Verif.Lemmas.Histogram
import Verif.Lemmas.Numeric
namespace Scipp
open Spec SubbinSizes
variable {α : Type} [LinearOrder α] {γ : Type} [DecidableEq γ]

/-! ### Grouping -/

theorem find_assign (m : HashMap γ) (k k' : γ) (v : Int) :
    (m.assign k v).find k' = if k = k' then some v else m.find k' := by
  induction m with
  | nil => simp [HashMap.assign, HashMap.find]
  | cons p m ih =>
    simp only [HashMap.assign]
    by_cases h : p.1 = k
    · rw [if_pos h]
      simp only [HashMap.find]
      by_cases hk : k = k'
      · simp [hk]
      · rw [if_neg hk, if_neg hk, if_neg (by rw [h]; exact hk)]
    · rw [if_neg h]
      simp only [HashMap.find, ih]
      by_cases hk : k = k'
      · subst hk; simp [h]
      · simp [hk]

theorem length_assign (m : HashMap γ) (k : γ) (v : Int) :
    (m.assign k v).length = if (m.find k).isSome then m.length else m.length + 1 := by
  induction m with
  | nil => simp [HashMap.assign, HashMap.find]
  | cons p m ih =>
    simp only [HashMap.assign, HashMap.find]
    by_cases h : p.1 = k
    · simp [h]
    · simp only [if_neg h, List.length_cons, ih]
      split <;> rfl

theorem groupsLoop_find (labels : List γ) (c : Int) (m : HashMap γ) (x : γ) (hx : x ∉ labels) :
    (groupsLoop labels c m).find x = m.find x := by
  induction labels generalizing c m with
  | nil => rfl
  | cons l labels ih =>
    simp only [List.mem_cons, not_or] at hx
    rw [groupsLoop, ih _ _ hx.2, find_assign, if_neg (Ne.symm hx.1)]

theorem groupsLoop_get (labels : List γ) (hn : labels.Nodup) (c : Int) (m : HashMap γ) (i : Nat) (x : γ)
    (hi : labels[i]? = some x) : (groupsLoop labels c m).find x = some (c + i) := by
  induction labels generalizing c m i with
  | nil => simp at hi
  | cons l labels ih =>
    rw [List.nodup_cons] at hn
    cases i with
    | zero =>
      simp only [List.getElem?_cons_zero, Option.some.injEq] at hi
      subst hi
      rw [groupsLoop, groupsLoop_find _ _ _ _ hn.1, find_assign, if_pos rfl]
      simp
    | succ i =>
      rw [groupsLoop, ih hn.2 _ _ i (by simpa using hi)]
      congr 1; push_cast; ring

/-- Length of the map: the number of distinct labels. -/
theorem groupsLoop_length_le (labels : List γ) (c : Int) (m : HashMap γ) :
    (groupsLoop labels c m).length ≤ m.length + labels.length := by
  induction labels generalizing c m with
  | nil => simp [groupsLoop]
  | cons l labels ih =>
    rw [groupsLoop]
    have h1 := ih (c + 1) (m.assign l c)
    have h2 := length_assign m l c
    simp only [List.length_cons]
    split at h2 <;> omega

theorem groupsLoop_length (labels : List γ) (c : Int) (m : HashMap γ) :
    (groupsLoop labels c m).length = m.length + labels.length ↔
      labels.Nodup ∧ ∀ l ∈ labels, m.find l = none := by
  induction labels generalizing c m with
  | nil => simp [groupsLoop]
  | cons l labels ih =>
    rw [groupsLoop]
    have h1 := groupsLoop_length_le labels (c + 1) (m.assign l c)
    have h2 := length_assign m l c
    have ih' := ih (c + 1) (m.assign l c)
    by_cases hf : (m.find l).isSome
    · rw [if_pos hf] at h2
      constructor
      · intro h; simp only [List.length_cons] at h; omega
      · rintro ⟨_, h⟩
        rw [h l (by simp)] at hf; simp at hf
    · rw [if_neg hf] at h2
      have hnone : m.find l = none := by simpa using hf
      have e : m.length + (l :: labels).length = (m.assign l c).length + labels.length := by
        simp only [List.length_cons]; omega
      rw [e, ih', List.nodup_cons]
      constructor
      · rintro ⟨h3, h4⟩
        refine ⟨⟨?_, h3⟩, ?_⟩
        · intro hl
          have := h4 l hl
          rw [find_assign, if_pos rfl] at this
          cases this
        · intro k hk
          rcases List.mem_cons.mp hk with rfl | hk
          · exact hnone
          · have := h4 k hk
            rw [find_assign] at this
            split at this
            · cases this
            · exact this
      · rintro ⟨⟨h3, h4⟩, h5⟩
        refine ⟨h4, ?_⟩
        intro k hk
        rw [find_assign, if_neg (by rintro rfl; exact h3 hk)]
        exact h5 k (List.mem_cons_of_mem _ hk)

theorem groupsToMap_nodup (labels : List γ) (h : labels.Nodup) :
    groupsToMap labels = .ok (groupsLoop labels 0 []) ∧ (groupsLoop labels 0 ([] : HashMap γ)).length = labels.length := by
  have := (groupsLoop_length labels 0 ([] : HashMap γ)).mpr ⟨h, by simp [HashMap.find]⟩
  simp only [List.length_nil, Nat.zero_add] at this
  exact ⟨by simp [groupsToMap, this], this⟩

theorem groupsToMap_dup (labels : List γ) (h : ¬ labels.Nodup) : groupsToMap labels = .error .runtime := by
  have : ¬ (groupsLoop labels 0 ([] : HashMap γ)).length = labels.length := by
    intro hl
    have := (groupsLoop_length labels 0 ([] : HashMap γ)).mp (by simpa using hl)
    exact h this.1
  simp only [groupsToMap]
  rw [if_pos (fun e => this e.symm)]

/-- Distinct integers with steps of one and the last above the first increase by one. -/
theorem isarange_nodup (l : List Int) (hn : l.Nodup) (h : Numeric.isarange l = true) :
    ∀ (i : Nat) (x : Int), l[i]? = some x → x = l.headD 0 + i := by
  match l with
  | [] => simp
  | [a] =>
    intro i x hx
    cases i with
    | zero => simp at hx; simp [hx]
    | succ i => simp at hx
  | a :: b :: rest =>
    obtain ⟨z, hz⟩ : ∃ z, (a :: b :: rest).getLast? = some z := ⟨_, List.getLast?_eq_some_getLast (by simp)⟩
    simp only [Numeric.isarange, hz] at h
    by_cases hza : z ≤ a
    · simp [hza] at h
    · rw [if_neg hza, Bool.not_eq_true', Numeric.adjacentFind_false] at h
      have hstep : ∀ (i : Nat) (x y : Int), (a :: b :: rest)[i]? = some x → (a :: b :: rest)[i + 1]? = some y →
          y - x = 1 ∨ y - x = -1 := by
        intro i x y hx hy
        have := h i x y hx hy
        simp only [bne_eq_false_iff_eq] at this
        rcases abs_choice (y - x) with h' | h' <;> omega
      -- all steps equal the first
      have hall : ∀ (d : Int), b - a = d → ∀ (i : Nat) (x : Int), (a :: b :: rest)[i]? = some x → x = a + i * d := by
        intro d hd i
        induction i using Nat.strong_induction_on with
        | _ i ih =>
          intro x hx
          match i with
          | 0 => simp at hx; omega
          | 1 => simp at hx; push_cast; omega
          | i + 2 =>
            obtain ⟨hi2, hx2⟩ := List.getElem?_eq_some_iff.mp hx
            have hg0 := List.getElem?_eq_getElem (show i < (a :: b :: rest).length by omega)
            have hg1 := List.getElem?_eq_getElem (show i + 1 < (a :: b :: rest).length by omega)
            have h0 := ih i (by omega) _ hg0
            have h1 := ih (i + 1) (by omega) _ hg1
            have hs := hstep (i + 1) _ x hg1 hx
            have hs0 := hstep i _ _ hg0 hg1
            have hne : (a :: b :: rest)[i]'(by omega) ≠ x := by
              rw [← hx2]
              intro e
              have := (List.nodup_iff_injective_getElem.mp hn) (a₁ := ⟨i, by omega⟩) (a₂ := ⟨i + 2, hi2⟩) e
              simp at this
            have e1 : ((i + 1 : Nat) : Int) * d = i * d + d := by push_cast; ring
            have e2 : ((i + 2 : Nat) : Int) * d = i * d + d + d := by push_cast; ring
            rw [e1] at h1
            rw [e2]
            omega
      have hfirst := hstep 0 a b rfl rfl
      have hz' := hz
      rw [List.getLast?_eq_getElem?] at hz'
      have hzv := hall (b - a) rfl _ z hz'
      have hd1 : b - a = 1 := by
        rcases hfirst with h1 | h1
        · exact h1
        · exfalso
          rw [h1] at hzv
          omega
      intro i x hx
      have := hall (b - a) rfl i x hx
      rw [hd1] at this
      simp only [List.headD_cons]
      omega

theorem updateByGroupingInt_eq (labels : List Int) (hn : labels.Nodup) (x index : Int) :
    updateByGroupingInt labels x index = updateByMap labels x index := by
  simp only [updateByGroupingInt]
  split
  · rename_i h
    obtain ⟨hm, hl⟩ := groupsToMap_nodup labels hn
    simp only [updateByMap, hm, updateGroupContiguous, updateGroup, hl]
    by_cases hi : index = -1
    · simp [hi]
    · rw [if_neg hi, if_neg hi]
      have hr := isarange_nodup labels hn (by simpa using h.2)
      by_cases hx : x ∈ labels
      · obtain ⟨i, hi'⟩ := List.getElem?_of_mem hx
        obtain ⟨hil, _⟩ := List.getElem?_eq_some_iff.mp hi'
        have := hr i x hi'
        rw [groupsLoop_get labels hn 0 [] i x hi', if_neg (by omega)]
        congr 1
        simp only
        omega
      · rw [groupsLoop_find labels 0 [] x hx]
        have hout : x - labels.headD 0 < 0 ∨ x - labels.headD 0 ≥ labels.length := by
          by_contra hc
          push Not at hc
          apply hx
          have hlt : (x - labels.headD 0).toNat < labels.length := by omega
          have := hr _ _ (List.getElem?_eq_getElem hlt)
          have e : labels[(x - labels.headD 0).toNat] = x := by omega
          rw [← e]; exact List.getElem_mem _
        rw [if_pos hout]
        rfl
  · rfl

end Scipp
