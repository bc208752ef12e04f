import Verif.Spec.CombineBins
import Mathlib.Tactic.SplitIfs
import Mathlib.Tactic.ByContra
import Mathlib.Tactic.Set
import Mathlib.Data.List.Nodup

namespace Scipp.CombineBins

variable {E Label : Type}

theorem length_slice {buffer : List E} {r : Nat × Nat} (h1 : r.1 ≤ r.2) (h2 : r.2 ≤ buffer.length) :
    (slice buffer r).length = r.2 - r.1 := by
  simp [slice]; omega

private theorem zip_content (L : List (List E)) : ∀ (P : List E) (k : Nat) (x : List E), L[k]? = some x →
    ∃ r, (List.zipWith (fun e s => (e - s, e)) (cumsumFrom P.length (L.map List.length)) (L.map List.length))[k]? = some r ∧
      slice (P ++ L.flatten) r = x := by
  induction L with
  | nil => intro P k x h; simp at h
  | cons y ys ih =>
    intro P k x h
    cases k with
    | zero =>
      simp only [List.getElem?_cons_zero, Option.some.injEq] at h
      subst h
      refine ⟨_, rfl, ?_⟩
      simp [slice]
    | succ k =>
      obtain ⟨r, h1, h2⟩ := ih (P ++ y) k x (by simpa using h)
      refine ⟨r, ?_, by simpa using h2⟩
      simpa [cumsumFrom] using h1

/-- Consecutive ranges with the lengths of some lists give these lists back from their concatenation. -/
theorem withSizes_content {L : List (List E)} {k : Nat} {x : List E} (h : L[k]? = some x) :
    slice L.flatten ((withSizes (L.map List.length)).getD k (0, 0)) = x := by
  obtain ⟨r, h1, h2⟩ := zip_content L [] k x h
  simp only [List.length_nil, List.nil_append] at h1 h2
  rw [withSizes, List.getD_eq_getElem?_getD, h1]
  exact h2

theorem length_withSizes (l : List Nat) : (withSizes l).length = l.length := by
  have : ∀ (l : List Nat) (a : Nat), (cumsumFrom a l).length = l.length := by
    intro l
    induction l with
    | nil => intro a; rfl
    | cons x xs ih => intro a; simp [cumsumFrom, ih]
  simp [withSizes, this]

theorem positions_zero {s : Shape} {c : Pos} (hc : c ∈ positions s) {e : Dim} (he : e ∉ s.map (·.1)) : c e = 0 := by
  induction s generalizing c with
  | nil => simp only [positions, List.mem_singleton] at hc; rw [hc]
  | cons p ps ih =>
    obtain ⟨d, n⟩ := p
    simp only [positions, List.mem_flatMap, List.mem_map] at hc
    obtain ⟨i, _, c', hc', rfl⟩ := hc
    simp only [List.map_cons, List.mem_cons, not_or] at he
    simp only [Pos.set, if_neg he.1]
    exact ih hc' he.2

theorem positions_append (U C : Shape) (hd : ∀ e ∈ U.map (·.1), e ∉ C.map (·.1)) :
    positions (U ++ C) = (positions U).flatMap (fun u => (positions C).map (fun v => join (C.map (·.1)) u v)) := by
  induction U with
  | nil =>
    simp only [List.nil_append, positions, List.flatMap_cons, List.flatMap_nil, List.append_nil]
    conv_lhs => rw [← List.map_id (positions C)]
    refine List.map_congr_left (fun v hv => ?_)
    funext e
    simp only [join, id]
    split_ifs with h
    · rfl
    · exact positions_zero hv h
  | cons p U ih =>
    obtain ⟨d, n⟩ := p
    simp only [List.cons_append, positions]
    rw [ih (fun e he => hd e (by simp only [List.map_cons, List.mem_cons]; exact Or.inr he))]
    rw [List.flatMap_assoc]
    congr 1
    funext i
    rw [List.flatMap_map, List.map_flatMap]
    congr 1
    funext u
    rw [List.map_map]
    refine List.map_congr_left (fun v _ => ?_)
    funext e
    simp only [Function.comp, Pos.set, join]
    by_cases h : e = d
    · subst h
      rw [if_pos rfl, if_neg (hd e (by simp)), if_pos rfl]
    · rw [if_neg h, if_neg h]

theorem length_positions (s : Shape) : (positions s).length = (s.map (·.2)).prod := by
  induction s with
  | nil => rfl
  | cons p ps ih =>
    obtain ⟨d, n⟩ := p
    simp [positions, List.length_flatMap, ih]

/-- Positions of which one index is taken from a selection are the selected positions. -/
theorem positions_select (m : Nat → Bool) (d : Dim) (n : Nat) (C : Shape) (hnd : (C.map (·.1)).Nodup) (hd : (d, n) ∈ C) (f : Pos → List E) :
    (positions (C.map (fun p => if p.1 = d then (d, ((List.range n).filter m).length) else p))).flatMap
        (fun v => f (v.set d (((List.range n).filter m).getD (v d) 0))) =
      (positions C).flatMap (fun v => if m (v d) then f v else []) := by
  induction C generalizing f with
  | nil => simp at hd
  | cons p C ih =>
    obtain ⟨e, k⟩ := p
    simp only [List.map_cons, List.nodup_cons] at hnd
    by_cases he : e = d
    · subst he
      have hkn : k = n := by
        rcases List.mem_cons.1 hd with h | h
        · cases h; rfl
        · exact absurd (List.mem_map.2 ⟨_, h, rfl⟩) hnd.1
      subst hkn
      have hC : C.map (fun p => if p.1 = e then (e, ((List.range k).filter m).length) else p) = C := by
        conv_rhs => rw [← List.map_id C]
        refine List.map_congr_left (fun p hp => ?_)
        rw [if_neg]
        · rfl
        · intro h
          exact hnd.1 (List.mem_map.2 ⟨p, hp, h⟩)
      simp only [List.map_cons, if_true, positions, hC, List.flatMap_assoc, List.flatMap_map]
      have hset : ∀ (c : Pos) (i j : Nat), (c.set e i).set e j = c.set e j := by
        intro c i j; funext x; simp only [Pos.set]; split_ifs <;> rfl
      have hget : ∀ (c : Pos) (i : Nat), (c.set e i) e = i := by intro c i; simp [Pos.set]
      simp only [hset, hget]
      set sel := (List.range k).filter m with hsel
      have h1 : (List.range sel.length).flatMap (fun i => (positions C).flatMap (fun c => f (c.set e (sel.getD i 0)))) =
          sel.flatMap (fun i => (positions C).flatMap (fun c => f (c.set e i))) := by
        have : sel = (List.range sel.length).map (fun i => sel.getD i 0) := by
          apply List.ext_getElem?
          intro i
          by_cases hi : i < sel.length
          · simp [hi]
          · simp [hi]
        conv_rhs => rw [this]
        rw [List.flatMap_map]
      rw [h1, hsel]
      generalize List.range k = R
      induction R with
      | nil => rfl
      | cons x xs ihx =>
        by_cases hx : m x = true
        · rw [List.filter_cons_of_pos hx, List.flatMap_cons, List.flatMap_cons, ihx]
          congr 1
          simp [hx]
        · rw [List.filter_cons_of_neg hx, List.flatMap_cons, ihx]
          simp [hx]
    · have hd' : (d, n) ∈ C := by
        rcases List.mem_cons.1 hd with h | h
        · cases h; exact absurd rfl he
        · exact h
      simp only [List.map_cons, if_neg he, positions, List.flatMap_assoc, List.flatMap_map]
      congr 1
      funext i
      have := ih hnd.2 hd' (fun v => f (v.set e i))
      have hcomm : ∀ (v : Pos) (j : Nat), (v.set e i).set d j = (v.set d j).set e i := by
        intro v j; funext x
        simp only [Pos.set]
        by_cases h1 : x = d
        · subst h1; rw [if_pos rfl, if_neg (Ne.symm he), if_pos rfl]
        · rw [if_neg h1, if_neg h1]
      have hget : ∀ v : Pos, (v.set e i) d = v d := by intro v; simp only [Pos.set]; rw [if_neg (Ne.symm he)]
      simp only [hcomm, hget]
      exact this

end Scipp.CombineBins
