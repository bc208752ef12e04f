import Verif.Model.Integrate
import Mathlib.Data.List.Nodup
import Mathlib.Tactic.Ring
/-!
C128: integration along a dim.
-/
namespace Scipp.Props
open Scipp Scipp.Integrate

/-- The value of a variable at a labelled position. -/
def c128At (v : Var) (σ : Dim → Nat) : ℚ := v.get (v.dims.map σ)

/-- The labelled position with another index along a dim. -/
def c128Set (σ : Dim → Nat) (dim : Dim) (k : Nat) : Dim → Nat := fun d => if d = dim then k else σ d

/-- The trapezoidal rule: area below the points `(x k, y k)` for `k < n`. -/
def c128Area (n : Nat) (x y : Nat → ℚ) : ℚ := ((List.range (n - 1)).map (fun k => (x (k + 1) - x k) * (y (k + 1) + y k) / 2)).sum

theorem insertIdx_position (dims : List Dim) (hn : dims.Nodup) (dim : Dim) (hm : dim ∈ dims) (σ : Dim → Nat) (k : Nat) :
    ((dims.filter (· != dim)).map σ).insertIdx (dims.idxOf dim) k = dims.map (c128Set σ dim k) := by
  induction dims with
  | nil => cases hm
  | cons d dims ih =>
    obtain ⟨hd, hn'⟩ := List.nodup_cons.1 hn
    by_cases h : d = dim
    · subst h
      have hf : (d :: dims).filter (· != d) = dims := by
        rw [List.filter_cons_of_neg (by simp)]
        refine List.filter_eq_self.2 ?_
        intro a ha
        have : a ≠ d := fun h => hd (h ▸ ha)
        simpa using this
      rw [hf, List.idxOf_cons_self, List.insertIdx_zero, List.map_cons]
      congr 1
      · simp [c128Set]
      · refine List.map_congr_left ?_
        intro a ha
        have : a ≠ d := fun h => hd (h ▸ ha)
        simp [c128Set, this]
    · have hm' : dim ∈ dims := by
        rcases List.mem_cons.1 hm with rfl | h'
        · exact absurd rfl h
        · exact h'
      rw [List.filter_cons_of_pos (by simpa using h), List.idxOf_cons_ne _ h, List.map_cons, List.map_cons, List.insertIdx_succ_cons, ih hn' hm']
      simp [c128Set, h]

/-- Everything which is done if there is a result. -/
theorem integrate_ok {U : Type} (mul : U → U → U) (da : Arr U) (dim : Dim) (r : Arr U) : integrate mul da dim = .ok r ↔
    ∃ n x get u v, da.variances = false ∧ da.data.len dim = some n ∧ (da.coords.find? (fun c => c.1 == dim)).map (·.2) = some x ∧ x.var.len dim = some n ∧
      trapezoid x.var da.data (da.data.dims.idxOf dim) = .ok get ∧ da.unit = some u ∧ x.unit = some v ∧ (∀ m ∈ da.masks, dim ∉ m.2.dims) ∧
      r = ⟨⟨da.data.dims.filter (· != dim), da.data.shape.eraseIdx (da.data.dims.idxOf dim), get⟩, false, some (mul u v), da.coords.filter (fun c => !c.2.var.dims.contains dim), da.masks⟩ := by
  have hmask : ∀ masks, validatedMasks da.masks dim = .ok masks ↔ (∀ m ∈ da.masks, dim ∉ m.2.dims) ∧ masks = da.masks := by
    intro masks
    unfold validatedMasks
    by_cases h : da.masks.any (fun m => m.2.dims.contains dim) = true
    · rw [if_pos h]
      refine ⟨fun h => (by cases h), ?_⟩
      rintro ⟨h', _⟩
      obtain ⟨m, hm, hd⟩ := List.any_eq_true.1 h
      exact absurd (List.contains_iff_mem.1 hd) (h' m hm)
    · rw [if_neg h]
      refine ⟨fun he => ⟨fun m hm hd => h (List.any_eq_true.2 ⟨m, hm, List.contains_iff_mem.2 hd⟩), (Except.ok.inj he).symm⟩, ?_⟩
      rintro ⟨_, rfl⟩
      rfl
  unfold integrate
  constructor
  · intro h
    split at h
    · cases h
    · rename_i hv
      split at h
      · cases h
      · cases h
      · rename_i n x hn hx
        split at h
        · cases h
        · rename_i m hm
          split at h
          · cases h
          · rename_i hnm
            simp only at h
            split at h
            · cases h
            · rename_i get hg
              split at h
              · rename_i u v hu hv'
                split at h
                · cases h
                · rename_i masks hmk
                  obtain ⟨h1, rfl⟩ := (hmask masks).1 hmk
                  cases not_not.1 hnm
                  exact ⟨n, x, get, u, v, by simpa using hv, hn, hx, hm, hg, hu, hv', h1, (Except.ok.inj h).symm⟩
              · cases h
  · rintro ⟨n, x, get, u, v, h1, h2, h3, h4, h5, h6, h7, h8, rfl⟩
    rw [h1, h2, h3]
    simp only [Bool.false_eq_true, if_false, h4, h5, h6, h7, ne_eq, not_true_eq_false]
    rw [(hmask da.masks).2 ⟨h8, rfl⟩]

/-- **C128** (partial: if the coord is one-dimensional, or has the dims of the data in the same order) The integral at any labelled position is the area below the points along the dim, given by the coord at that position. -/
theorem C128_integral_partial {U : Type} (mul : U → U → U) (da : Arr U) (dim : Dim) (r : Arr U) (h : integrate mul da dim = .ok r) (hn : da.data.dims.Nodup)
    (x : Coord U) (hx : (da.coords.find? (fun c => c.1 == dim)).map (·.2) = some x) (hl : x.var.shape.length = x.var.dims.length)
    (hd : x.var.dims = [dim] ∨ (x.var.dims = da.data.dims ∧ x.var.shape = da.data.shape)) (n : Nat) (hsize : da.data.len dim = some n) (σ : Dim → Nat) :
    c128At r.data σ = c128Area n (fun k => c128At x.var (c128Set σ dim k)) (fun k => c128At da.data (c128Set σ dim k)) := by
  obtain ⟨n', x', get, u, v, _, h2, h3, h4, h5, _, _, _, rfl⟩ := (integrate_ok mul da dim r).1 h
  rw [hx] at h3
  cases h3
  rw [hsize] at h2
  cases h2
  have hmem : dim ∈ da.data.dims := by
    unfold Var.len at hsize
    split at hsize
    · assumption
    · cases hsize
  have hlen : da.data.shape.getD (da.data.dims.idxOf dim) 0 = n := by
    unfold Var.len at hsize
    rw [if_pos hmem] at hsize
    rw [List.getD_eq_getElem?_getD, hsize]
    rfl
  have hy := insertIdx_position da.data.dims hn dim hmem σ
  unfold trapezoid at h5
  show get ((da.data.dims.filter (· != dim)).map σ) = _
  unfold c128Area c128At
  by_cases h1 : x.var.shape.length = 1
  · rw [if_pos h1] at h5
    have hd1 : x.var.dims = [dim] := by
      rcases hd with hd | ⟨hd, hs⟩
      · exact hd
      · rw [hl, hd] at h1
        obtain ⟨d, hdd⟩ := List.length_eq_one_iff.1 h1
        rw [hdd] at hmem
        rw [hd, hdd, List.mem_singleton.1 hmem]
    rw [← Except.ok.inj h5]
    simp only [hlen, hy]
    simp [hd1, c128Set]
  · rw [if_neg h1] at h5
    have hd2 : x.var.dims = da.data.dims ∧ x.var.shape = da.data.shape := by
      rcases hd with hd | hd
      · rw [hl, hd] at h1; exact absurd rfl h1
      · exact hd
    rw [if_pos hd2.2] at h5
    rw [← Except.ok.inj h5]
    simp only [hlen, hy, hd2.1]

/-- **C128** The result has all dims but that of the integral, the product of the units, no variances, exactly those coords which do not depend on the dim, and all masks. -/
theorem C128_metadata {U : Type} (mul : U → U → U) (da : Arr U) (dim : Dim) (r : Arr U) (h : integrate mul da dim = .ok r) :
    (∀ d, d ∈ r.data.dims ↔ d ∈ da.data.dims ∧ d ≠ dim) ∧ r.data.dims.Sublist da.data.dims ∧ r.variances = false ∧
    (∃ u v c, da.unit = some u ∧ (dim, c) ∈ da.coords ∧ c.unit = some v ∧ r.unit = some (mul u v)) ∧
    r.coords.Sublist da.coords ∧ (∀ c, c ∈ r.coords ↔ c ∈ da.coords ∧ dim ∉ c.2.var.dims) ∧ r.masks = da.masks := by
  obtain ⟨n, x, get, u, v, _, _, h3, _, _, h6, h7, _, rfl⟩ := (integrate_ok mul da dim r).1 h
  refine ⟨fun d => by simp [List.mem_filter], List.filter_sublist, rfl, ⟨u, v, x, h6, ?_, h7, rfl⟩, List.filter_sublist, fun c => by simp [List.mem_filter], rfl⟩
  obtain ⟨c, hc, rfl⟩ := Option.map_eq_some_iff.1 h3
  have := List.find?_some hc
  have hm := List.mem_of_find?_eq_some hc
  have he : c.1 = dim := by simpa using this
  rw [← he]
  exact hm

/-- **C128** Data with variances, masks which depend on the dim and bin edges are rejected. -/
theorem C128_rejects {U : Type} (mul : U → U → U) (da : Arr U) (dim : Dim) :
    (da.variances = true → integrate mul da dim = .error .variances) ∧
    (∀ m ∈ da.masks, dim ∈ m.2.dims → ∀ r, integrate mul da dim ≠ .ok r) ∧
    (∀ n m x, da.variances = false → da.data.len dim = some n → (da.coords.find? (fun c => c.1 == dim)).map (·.2) = some x → x.var.len dim = some m → m ≠ n → integrate mul da dim = .error .binEdge) := by
  refine ⟨?_, ?_, ?_⟩
  · intro h
    unfold integrate
    rw [if_pos h]
  · intro m hm hd r h
    obtain ⟨_, _, _, _, _, _, _, _, _, _, _, _, h8, _⟩ := (integrate_ok mul da dim r).1 h
    exact h8 m hm hd
  · intro n m x h1 h2 h3 h4 h5
    unfold integrate
    rw [h1, h2, h3]
    simp only [Bool.false_eq_true, if_false, h4]
    rw [if_pos (Ne.symm h5)]

/-- **C128** Everything else is accepted: units are given, and the coord is one-dimensional or has the shape of the data. -/
theorem C128_accepts {U : Type} (mul : U → U → U) (da : Arr U) (dim : Dim) (n : Nat) (x : Coord U) (u v : U) (h1 : da.variances = false) (h2 : da.data.len dim = some n)
    (h3 : (da.coords.find? (fun c => c.1 == dim)).map (·.2) = some x) (h4 : x.var.len dim = some n) (h5 : x.var.shape.length = 1 ∨ x.var.shape = da.data.shape) (h6 : da.unit = some u) (h7 : x.unit = some v)
    (h8 : ∀ m ∈ da.masks, dim ∉ m.2.dims) : ∃ r, integrate mul da dim = .ok r := by
  have hg : ∃ get, trapezoid x.var da.data (da.data.dims.idxOf dim) = .ok get := by
    unfold trapezoid
    split
    · exact ⟨_, rfl⟩
    · rename_i h
      rw [if_pos (h5.resolve_left h)]
      exact ⟨_, rfl⟩
  obtain ⟨get, hg⟩ := hg
  exact ⟨_, (integrate_ok mul da dim _).2 ⟨n, x, get, u, v, h1, h2, h3, h4, hg, h6, h7, h8, rfl⟩⟩

/-- **C128** The area is right for a constant: the constant times the length of the interval; and areas of adjacent parts add up. -/
theorem C128_area (x y : Nat → ℚ) :
    (∀ c n, (∀ k, y k = c) → c128Area (n + 1) x y = c * (x n - x 0)) ∧
    (∀ n m, c128Area (n + m + 1) x y = c128Area (n + 1) x y + c128Area (m + 1) (fun k => x (n + k)) (fun k => y (n + k))) := by
  constructor
  · intro c n hc
    unfold c128Area
    rw [Nat.add_sub_cancel]
    induction n with
    | zero => simp
    | succ n ih =>
      rw [List.range_succ, List.map_append, List.sum_append, ih]
      simp only [List.map_cons, List.map_nil, List.sum_cons, List.sum_nil, hc]
      ring
  · intro n m
    unfold c128Area
    simp only [Nat.add_sub_cancel]
    rw [List.range_add, List.map_append, List.sum_append, List.map_map]
    rfl

/-! Cases meeting the hypotheses. -/

/-- Data 2×2 with dims 1, 2: values 1, 2, 3, 4. -/
def c128Data : Var := ⟨[1, 2], [2, 2], fun i => (1 + 2 * i.getD 0 0 + i.getD 1 0 : Nat)⟩

/-- Coord of dim 1, which depends on both dims, with values 0, 1 at index 0 and 0, 10 at index 1 of dim 2; dims in the order given. -/
def c128Coord : Var := ⟨[1, 2], [2, 2], fun i => (i.getD 0 0 * (1 + 9 * i.getD 1 0) : Nat)⟩

/-- The same coord, transposed. -/
def c128Transposed : Var := ⟨[2, 1], [2, 2], fun i => (i.getD 1 0 * (1 + 9 * i.getD 0 0) : Nat)⟩

/-- A data array with a coord. -/
def c128Arr (x : Var) : Arr Nat := ⟨c128Data, false, some 3, [(1, ⟨x, some 5⟩), (2, ⟨⟨[2], [2], fun i => (i.getD 0 0 : Nat)⟩, some 7⟩)], []⟩

example : (integrate (· + ·) (c128Arr c128Coord) 1).toOption.map (fun r => (r.data.dims, r.unit, r.data.get [0], r.data.get [1])) = some ([2], some 8, 2, 30) := by decide +kernel

/-- **C128** fails if the coord has the dims of the data in another order: transposing a coord, which does not change it, changes the integral. -/
theorem C128_wrong_order : (∀ σ, c128At c128Coord σ = c128At c128Transposed σ) ∧
    (integrate (· + ·) (c128Arr c128Coord) 1).toOption.map (fun r => (r.data.get [0], r.data.get [1])) = some (2, 30) ∧
    (integrate (· + ·) (c128Arr c128Transposed) 1).toOption.map (fun r => (r.data.get [0], r.data.get [1])) = some (0, 27) := by
  refine ⟨fun σ => rfl, by decide +kernel, by decide +kernel⟩

example (r : Arr Nat) (h : integrate (· + ·) (c128Arr c128Coord) 1 = .ok r) (σ : Dim → Nat) :
    c128At r.data σ = c128Area 2 (fun k => c128At c128Coord (c128Set σ 1 k)) (fun k => c128At c128Data (c128Set σ 1 k)) :=
  C128_integral_partial (· + ·) (c128Arr c128Coord) 1 r h (by decide) ⟨c128Coord, some 5⟩ rfl rfl (Or.inr ⟨rfl, rfl⟩) 2 rfl σ

example : ∃ r, integrate (· + ·) (c128Arr c128Coord) 1 = .ok r :=
  C128_accepts (· + ·) (c128Arr c128Coord) 1 2 ⟨c128Coord, some 5⟩ 3 5 rfl rfl rfl rfl (Or.inr rfl) rfl rfl (by simp [c128Arr])

example : integrate (· + ·) { c128Arr c128Coord with variances := true } 1 = .error .variances := (C128_rejects _ _ _).1 rfl

end Scipp.Props
