import Verif.Spec.NdFilter
import Mathlib.Data.List.Nodup
import Mathlib.Data.List.Forall2
import Mathlib.Tactic.FieldSimp
/-
Lemmas about filters.
-/
namespace Scipp.NdFilter
open Scipp

theorem mem_positions (s o : List Nat) : o ∈ positions s ↔ List.Forall₂ (· < ·) o s := by
  induction s generalizing o with
  | nil => simp [positions]
  | cons n s ih =>
    simp only [positions, List.mem_flatMap, List.mem_range, List.mem_map]
    constructor
    · rintro ⟨i, hi, r, hr, rfl⟩
      exact .cons hi ((ih r).1 hr)
    · intro h
      cases h with
      | cons h1 h2 => exact ⟨_, h1, _, (ih _).2 h2, rfl⟩

theorem nodup_positions (s : List Nat) : (positions s).Nodup := by
  induction s with
  | nil => simp [positions]
  | cons n s ih =>
    simp only [positions]
    rw [List.nodup_flatMap]
    refine ⟨fun i _ => ih.map (fun a b h => (List.cons.inj h).2), ?_⟩
    refine List.Pairwise.imp ?_ List.nodup_range
    intro i j hij
    simp only [Function.onFun]
    intro o ho ho'
    obtain ⟨_, _, rfl⟩ := List.mem_map.1 ho
    obtain ⟨_, _, h⟩ := List.mem_map.1 ho'
    exact hij (List.cons.inj h).1.symm

/-- A list with a number for each dim as function of the dim. -/
def label (dims : List Dim) (o : List Nat) (d : Dim) : Nat := o.getD (dims.idxOf d) 0

theorem map_label {dims : List Dim} (hd : dims.Nodup) {o : List Nat} (hl : o.length = dims.length) : dims.map (label dims o) = o := by
  apply List.ext_getElem
  · simp [hl]
  · intro i h1 h2
    rw [List.getElem_map]
    unfold label
    rw [hd.idxOf_getElem i (by simpa using h1), List.getD_eq_getElem?_getD, List.getElem?_eq_getElem h2]
    rfl

theorem place_map (dims : List Dim) (c : Dim → Int) (o n : Dim → Nat) (g : Dim → Int) :
    place (dims.map c) (dims.map o) (dims.map n) (dims.map g) = dims.map fun d => c d + o d - (n d / 2 : Nat) - g d := by
  induction dims with
  | nil => rfl
  | cons d dims ih => simp only [List.map_cons, place]; rw [ih]

theorem size_map {f : Footprint} (hd : (f.sizes.map (·.1)).Nodup) : f.sizes.map (·.2) = (f.sizes.map (·.1)).map f.size := by
  rw [List.map_map]
  refine List.map_congr_left fun e he => ?_
  simp only [Function.comp_apply, Footprint.size]
  cases h : f.sizes.find? (fun e' => e'.1 == e.1) with
  | none =>
    rw [List.find?_eq_none] at h
    exact absurd (beq_self_eq_true _) (h e he)
  | some e' =>
    have h1 := List.find?_some h
    have h2 := List.mem_of_find?_eq_some h
    have := List.inj_on_of_nodup_map hd h2 he (by simpa using h1)
    simp [this]

theorem forall₂_map (l : List (Dim × Nat)) (o : Dim → Nat) : List.Forall₂ (· < ·) (l.map fun e => o e.1) (l.map (·.2)) ↔ ∀ e ∈ l, o e.1 < e.2 := by
  induction l with
  | nil => simp
  | cons e l ih => simp [ih]

theorem filter_window {V : Type} (F : List V → V) (x : Arr V) (hd : x.dims.Nodup) (f : Footprint) (hf : f.sizes.map (·.1) = x.dims) (org : Dim → ℚ) (c : Dim → Int) :
    ∃ os, Window x.dims f os ∧ scipyFilter F x.values (f.sizes.map (·.2)) f.values ((x.dims.map org).map FloatBins.truncate) (x.dims.map c) = F (os.map fun o => x.at (shifted f org c o)) := by
  have hn : (f.sizes.map (·.1)).Nodup := hf ▸ hd
  have hlen : ∀ o ∈ (positions (f.sizes.map (·.2))).filter f.values, o.length = x.dims.length := by
    intro o ho
    have := ((mem_positions _ o).1 (List.mem_filter.1 ho).1).length_eq
    rw [this, List.length_map, ← hf, List.length_map]
  have hmap : ∀ o : Dim → Nat, f.sizes.map (fun e => o e.1) = x.dims.map o := by
    intro o
    rw [← hf, List.map_map]
    rfl
  have hcov : ∀ o : Dim → Nat, f.Covers o ↔ x.dims.map o ∈ (positions (f.sizes.map (·.2))).filter f.values := by
    intro o
    rw [List.mem_filter, mem_positions, ← hmap, forall₂_map]
    rfl
  refine ⟨((positions (f.sizes.map (·.2))).filter f.values).map (label x.dims), ⟨?_, ?_, ?_⟩, ?_⟩
  · intro o ho
    obtain ⟨l, hl, rfl⟩ := List.mem_map.1 ho
    rw [hcov, map_label hd (hlen l hl)]
    exact hl
  · intro o ho
    refine ⟨_, List.mem_map.2 ⟨_, (hcov o).1 ho, rfl⟩, ?_⟩
    have := map_label hd (o := x.dims.map o) (by simp)
    exact fun d hd' => List.map_inj_left.1 this d hd'
  · rw [List.pairwise_map]
    refine List.Pairwise.imp_of_mem ?_ ((nodup_positions _).filter f.values)
    intro a b ha hb hab hag
    apply hab
    rw [← map_label hd (hlen a ha), ← map_label hd (hlen b hb)]
    exact List.map_congr_left hag
  · unfold scipyFilter
    refine congrArg F (Eq.trans (List.map_congr_left fun o ho => ?_) List.map_map.symm)
    simp only [Function.comp_apply, Arr.at]
    congr 1
    conv_lhs => rw [← map_label hd (hlen o ho), size_map hn, hf, List.map_map]
    rw [place_map]
    rfl

theorem mapM_ok {α β : Type} (f : α → Except Err β) (l : List α) (r : List β) : l.mapM f = .ok r ↔ List.Forall₂ (fun a b => f a = .ok b) l r := by
  induction l generalizing r with
  | nil => simp [pure, Except.pure, eq_comm]
  | cons a l ih =>
    rw [List.mapM_cons]
    cases ha : f a with
    | error e =>
      constructor
      · intro h; cases h
      · intro h
        cases h with
        | cons h1 h2 => rw [ha] at h1; cases h1
    | ok b =>
      cases hl : l.mapM f with
      | error e =>
        constructor
        · intro h; cases h
        · intro h
          cases h with
          | cons h1 h2 => rw [← ih, hl] at h2; cases h2
      | ok bs =>
        constructor
        · intro h
          obtain rfl := Except.ok.inj h
          exact .cons ha ((ih bs).1 hl)
        · intro h
          cases h with
          | cons h1 h2 =>
            rw [← ih, hl] at h2
            rw [ha] at h1
            cases h1; cases h2; rfl

theorem truncate_int (k : Int) : FloatBins.truncate (k : ℚ) = k := by
  simp [FloatBins.truncate]

theorem find_mem {α : Type} {m : List (Dim × α)} (hm : (m.map (·.1)).Nodup) {d : Dim} {i : α} (h : (d, i) ∈ m) : (m.find? (fun e => e.1 == d)).map (·.2) = some i := by
  cases hf : m.find? (fun e => e.1 == d) with
  | none =>
    rw [List.find?_eq_none] at hf
    exact absurd (beq_self_eq_true _) (hf _ h)
  | some e =>
    have := List.inj_on_of_nodup_map hm (List.mem_of_find?_eq_some hf) h (by simpa using List.find?_some hf)
    simp [this]

end Scipp.NdFilter
