import Verif.Lemmas.NdFilter
import Mathlib.Data.List.Perm.Basic
/-!
C123: filters of N-D arrays use the labels of dims and the coords.
-/
namespace Scipp.Props
open Scipp Scipp.NdFilter

/-- **C123** With a mapping, every dim of the data gets the value for its own label, for any order of dims in the data and in the mapping. -/
theorem C123_labels {V : Type} (rd : ℚ → ℚ) (lin : List ℚ → Bool) (conv : Nat → Nat → Option ℚ) (k : Kind) (x : Arr V) (m : List (Dim × Index)) (hm : (m.map (·.1)).Nodup) (l : List ℚ) :
    positionalIndex rd lin conv k x (.each m) = .ok l ↔
      (∀ d, d ∈ x.dims ↔ d ∈ m.map (·.1)) ∧ List.Forall₂ (fun d v => ∃ i, (d, i) ∈ m ∧ deltaToPositional rd lin conv k x d i = .ok v) x.dims l := by
  have hmatch : matching x m = true ↔ ∀ d, d ∈ x.dims ↔ d ∈ m.map (·.1) := by
    unfold matching
    rw [Bool.and_eq_true, List.all_eq_true, List.all_eq_true]
    simp only [List.contains_iff_mem]
    exact ⟨fun h d => ⟨h.2 d, h.1 d⟩, fun h => ⟨fun d => (h d).2, fun d => (h d).1⟩⟩
  have hstep : ∀ d v, (match (m.find? (fun e => e.1 == d)).map (·.2) with
      | none => .error .notFound
      | some i => deltaToPositional rd lin conv k x d i) = Except.ok v ↔ ∃ i, (d, i) ∈ m ∧ deltaToPositional rd lin conv k x d i = .ok v := by
    intro d v
    constructor
    · intro h
      cases hf : m.find? (fun e => e.1 == d) with
      | none => rw [hf] at h; cases h
      | some e =>
        rw [hf] at h
        have h1 : e.1 = d := by simpa using List.find?_some hf
        exact ⟨e.2, by rw [← h1]; exact List.mem_of_find?_eq_some hf, h⟩
    · rintro ⟨i, hi, h⟩
      rw [find_mem hm hi]
      exact h
  simp only [positionalIndex]
  by_cases h : matching x m = true
  · rw [if_neg (by rw [h]; simp), mapM_ok]
    exact ⟨fun h' => ⟨hmatch.1 h, h'.imp fun d v => (hstep d v).1⟩, fun h' => h'.2.imp fun d v => (hstep d v).2⟩
  · rw [if_pos (by simpa using h)]
    constructor
    · intro h'; cases h'
    · rintro ⟨h', _⟩; exact absurd (hmatch.2 h') h

/-- **C123** A single value is that of all dims. -/
theorem C123_all {V : Type} (rd : ℚ → ℚ) (lin : List ℚ → Bool) (conv : Nat → Nat → Option ℚ) (k : Kind) (x : Arr V) (i : Index) (l : List ℚ) :
    positionalIndex rd lin conv k x (.all i) = .ok l ↔ List.Forall₂ (fun d v => deltaToPositional rd lin conv k x d i = .ok v) x.dims l := mapM_ok _ _ _

/-- **C123** Plain numbers are numbers of points. -/
theorem C123_plain {V : Type} (rd : ℚ → ℚ) (lin : List ℚ → Bool) (conv : Nat → Nat → Option ℚ) (k : Kind) (x : Arr V) (d : Dim) (v : ℚ) :
    deltaToPositional rd lin conv k x d (.plain v) = .ok v := rfl

/-- **C123** In exact arithmetic, a value with the unit of the coord (or one that can be converted) which is `t` steps of the coord long gives `t` points, or as integer the integral part of `t`. In particular it gives `n` points for
`n` steps. -/
theorem C123_steps {V : Type} (lin : List ℚ → Bool) (conv : Nat → Nat → Option ℚ) (x : Arr V) (d : Dim) (c : Axis) (hc : x.coords d = some c) (hl : lin c.values = true) (hn : 2 ≤ c.values.length)
    (hr : c.values.headD 0 < c.values.getLastD 0) (v f t : ℚ) (u : Nat) (hf : conv u c.unit = some f)
    (ht : v * f = t * ((c.values.getLastD 0 - c.values.headD 0) / ((c.values.length : ℚ) - 1))) :
    deltaToPositional id lin conv .float x d (.scalar v u) = .ok t ∧ deltaToPositional id lin conv .int x d (.scalar v u) = .ok (FloatBins.truncate t) ∧
    ∀ n : Int, t = n → deltaToPositional id lin conv .int x d (.scalar v u) = .ok n := by
  have h1 : ((c.values.length : ℚ) - 1) ≠ 0 := by
    have : (2 : ℚ) ≤ c.values.length := by exact_mod_cast hn
    intro h
    rw [sub_eq_zero] at h
    rw [h] at this
    revert this
    decide +kernel
  have h2 : c.values.getLastD 0 - c.values.headD 0 ≠ 0 := sub_ne_zero.2 (ne_of_gt hr)
  have hpos : (((c.values.length : ℚ) - 1) * (v * f / (c.values.getLastD 0 - c.values.headD 0))) = t := by
    rw [ht]
    field_simp
  have hfl : ∀ k : Kind, deltaToPositional id lin conv k x d (.scalar v u) = .ok (k.cast t) := by
    intro k
    simp only [deltaToPositional, hc, hl, hf, id, Bool.true_eq_false, if_false]
    rw [hpos]
  refine ⟨hfl .float, hfl .int, ?_⟩
  rintro n rfl
  rw [hfl .int]
  simp only [Kind.cast, truncate_int]

/-- **C123** Values with unit are rejected without coord, if the points are not evenly spaced, and if units do not match. -/
theorem C123_rejects {V : Type} (rd : ℚ → ℚ) (lin : List ℚ → Bool) (conv : Nat → Nat → Option ℚ) (k : Kind) (x : Arr V) (d : Dim) (v r : ℚ) (u : Nat)
    (h : deltaToPositional rd lin conv k x d (.scalar v u) = .ok r) : ∃ c f, x.coords d = some c ∧ lin c.values = true ∧ conv u c.unit = some f := by
  simp only [deltaToPositional] at h
  cases hc : x.coords d with
  | none => rw [hc] at h; cases h
  | some c =>
    rw [hc] at h
    simp only at h
    split at h
    · cases h
    · rename_i hl
      cases hf : conv u c.unit with
      | none => rw [hf] at h; cases h
      | some f => exact ⟨c, f, rfl, by simpa using hl, hf⟩

/-- The coord 0.0, 0.3, 0.6, 0.9, 1.2, 1.5 with numbers of type `double`. -/
def c123Coord : List ℚ := (List.range 6).map fun i => Numeric.roundDouble (3 * i / 10)

/-- **C123** fails for numbers of type `double`: with the coord 0.0, 0.3, …, 1.5, a size equal to the distance of two points two steps apart gives one point instead of two. -/
theorem C123_wrong_steps : FloatBins.islinspace c123Coord = true ∧
    ∀ (V : Type) (x : Arr V) (d : Dim), x.coords d = some ⟨c123Coord, 0⟩ →
      deltaToPositional Numeric.roundDouble FloatBins.islinspace (fun _ _ => some 1) .int x d (.scalar (c123Coord.getD 2 0 - c123Coord.getD 0 0) 0) = .ok 1 := by
  refine ⟨by decide +kernel, ?_⟩
  intro V x d hx
  simp only [deltaToPositional, hx]
  rw [if_neg (by decide +kernel)]
  decide +kernel

/-- **C123** (partial: the dims of the footprint must have the order of the dims of the data) A filter with a footprint: at every position it is the function of the values at the positions covered by the footprint, which is placed by the
labels of its dims. Coords are kept. -/
theorem C123_footprint_partial {V : Type} (rd : ℚ → ℚ) (lin : List ℚ → Bool) (conv : Nat → Nat → Option ℚ) (F : List V → V) (x : Arr V) (hd : x.dims.Nodup) (hv : x.variances = false) (hm : x.masks = false)
    (f : Footprint) (hf : f.sizes.map (·.1) = x.dims) (origin : Arg) (org : Dim → ℚ) (ho : positionalIndex rd lin conv .int x origin = .ok (x.dims.map org)) :
    ∃ y, footprintFilter rd lin conv F x none (some f) origin = .ok y ∧ y.dims = x.dims ∧ y.coords = x.coords ∧
      ∀ c, ∃ os, Window x.dims f os ∧ y.at c = F (os.map fun o => x.at (shifted f org c o)) := by
  have hmk : makeFootprint rd lin conv x none (some f) = .ok f := by
    simp only [makeFootprint]
    rw [if_neg]
    rw [hf]
    simp
  refine ⟨{ x with values := scipyFilter F x.values (f.sizes.map (·.2)) f.values ((x.dims.map org).map FloatBins.truncate) }, ?_, rfl, rfl, fun c => filter_window F x hd f hf org c⟩
  simp only [footprintFilter, hv, hm, hmk, ho, Bool.false_eq_true, if_false]

/-- **C123** A filter with a size: at every position it is the function of the values in the box of the size given for the label of each dim. -/
theorem C123_size {V : Type} (rd : ℚ → ℚ) (lin : List ℚ → Bool) (conv : Nat → Nat → Option ℚ) (F : List V → V) (x : Arr V) (hd : x.dims.Nodup) (hv : x.variances = false) (hm : x.masks = false)
    (size : Arg) (n : Dim → Nat) (hs : positionalIndex rd lin conv .int x size = .ok (x.dims.map fun d => (n d : ℚ)))
    (origin : Arg) (org : Dim → ℚ) (ho : positionalIndex rd lin conv .int x origin = .ok (x.dims.map org)) :
    ∃ y, footprintFilter rd lin conv F x (some size) none origin = .ok y ∧ y.dims = x.dims ∧ y.coords = x.coords ∧
      ∀ c, ∃ os, Window x.dims ⟨x.dims.map fun d => (d, n d), fun _ => true⟩ os ∧
        y.at c = F (os.map fun o => x.at fun d => shifted ⟨x.dims.map fun d => (d, n d), fun _ => true⟩ org c o d) := by
  have hz : x.dims.zip ((x.dims.map fun d => (n d : ℚ)).map fun v => (FloatBins.truncate v).toNat) = x.dims.map fun d => (d, n d) := by
    rw [List.map_map]
    have : ((fun v => (FloatBins.truncate v).toNat) ∘ fun d => (n d : ℚ)) = n := by
      funext d
      have := truncate_int (n d)
      simp only [Function.comp_apply]
      rw [show ((n d : ℚ)) = (((n d : Int)) : ℚ) from (Int.cast_natCast _).symm, this]
      rfl
    rw [this]
    generalize x.dims = l
    induction l with
    | nil => rfl
    | cons a l ih => simp [ih]
  have hmk : makeFootprint rd lin conv x (some size) none = .ok ⟨x.dims.map fun d => (d, n d), fun _ => true⟩ := by
    simp only [makeFootprint, hs]
    rw [if_neg, hz]
    rw [List.any_eq_true]
    rintro ⟨v, hv', h⟩
    obtain ⟨d, _, rfl⟩ := List.mem_map.1 hv'
    exact absurd (of_decide_eq_true h) (not_lt.2 (Nat.cast_nonneg _))
  have hf : (x.dims.map fun d => (d, n d)).map (·.1) = x.dims := by rw [List.map_map]; exact List.map_id _
  refine ⟨{ x with values := scipyFilter F x.values ((x.dims.map fun d => (d, n d)).map (·.2)) (fun _ => true) ((x.dims.map org).map FloatBins.truncate) }, ?_, rfl, rfl,
    fun c => filter_window F x hd ⟨x.dims.map fun d => (d, n d), fun _ => true⟩ hf org c⟩
  simp only [footprintFilter, hv, hm, hmk, ho, Bool.false_eq_true, if_false]

/-- **C123** Data with variances or masks is rejected, and so are both or none of `size` and `footprint`, and a footprint with other dims. -/
theorem C123_checks {V : Type} (rd : ℚ → ℚ) (lin : List ℚ → Bool) (conv : Nat → Nat → Option ℚ) (F : List V → V) (x y : Arr V) (size : Option Arg) (footprint : Option Footprint) (origin : Arg)
    (h : footprintFilter rd lin conv F x size footprint origin = .ok y) :
    x.variances = false ∧ x.masks = false ∧ (size = none ↔ footprint ≠ none) ∧ ∀ f, footprint = some f → ∀ d, d ∈ f.sizes.map (·.1) ↔ d ∈ x.dims := by
  unfold footprintFilter at h
  split at h
  · cases h
  rename_i hv
  split at h
  · cases h
  rename_i hm
  refine ⟨by simpa using hv, by simpa using hm, ?_⟩
  cases size with
  | none =>
    cases footprint with
    | none => cases h
    | some f =>
      refine ⟨by simp, ?_⟩
      rintro g hg
      obtain rfl := Option.some.inj hg
      simp only [makeFootprint] at h
      split at h
      · cases h
      rename_i f' hf'
      split at hf'
      · cases hf'
      rename_i hc
      rw [Bool.not_eq_false, Bool.and_eq_true, List.all_eq_true, List.all_eq_true] at hc
      simp only [List.contains_iff_mem] at hc
      exact fun d => ⟨hc.1 d, hc.2 d⟩
  | some s =>
    cases footprint with
    | none => exact ⟨by simp, by simp⟩
    | some f => cases h

/-- Data with dims 1 and 2, whose values are the positions along dim 1. -/
def c123Data : Arr Int := ⟨[1, 2], fun l => l.headD 0, fun _ => none, false, false⟩

/-- **C123** fails for a footprint with the dims in another order: it is applied to the wrong dims. The maximum over three points along dim 2 of data that does not depend on dim 2 is not the data. -/
theorem C123_wrong_footprint : ∃ (f : Footprint) (y : Arr Int), f.sizes = [(2, 3), (1, 1)] ∧
    footprintFilter id (fun _ => true) (fun _ _ => some 1) (fun l => l.foldl max 0) c123Data none (some f) (.all (.plain 0)) = .ok y ∧
    ∀ os, Window c123Data.dims f os → y.at (fun _ => 0) ≠ (os.map fun o => c123Data.at (shifted f (fun _ => 0) (fun _ => 0) o)).foldl max 0 := by
  refine ⟨⟨[(2, 3), (1, 1)], fun _ => true⟩, _, rfl, rfl, ?_⟩
  intro os hw
  have hz : ∀ v ∈ os.map (fun o => c123Data.at (shifted ⟨[(2, 3), (1, 1)], fun _ => true⟩ (fun _ => 0) (fun _ => 0) o)), v = 0 := by
    intro v hv
    obtain ⟨o, ho, rfl⟩ := List.mem_map.1 hv
    have h1 : o 1 < 1 := (hw.covered o ho).1 (1, 1) (by simp)
    have h0 : o 1 = 0 := Nat.lt_one_iff.1 h1
    have hs : (shifted ⟨[(2, 3), (1, 1)], fun _ => true⟩ (fun _ => 0) (fun _ => 0) o) 1 = 0 := by
      unfold shifted
      rw [h0]
      rfl
    exact hs
  have hf : ∀ l : List Int, (∀ v ∈ l, v = 0) → l.foldl max 0 = 0 := by
    intro l hl
    induction l with
    | nil => rfl
    | cons a l ih =>
      rw [List.foldl_cons, hl a (by simp)]
      exact ih fun v hv => hl v (by simp [hv])
  rw [hf _ hz]
  decide

/-! Cases meeting the hypotheses. -/

/-- Data with dims 1 and 2, with a coord for dim 1. -/
def c123Example : Arr Int := ⟨[1, 2], fun l => l.getD 0 0 * 10 + l.getD 1 0, fun d => if d = 1 then some ⟨[0, 1 / 2, 1, 3 / 2], 0⟩ else none, false, false⟩

example : positionalIndex id (fun _ => true) (fun _ _ => some 1) .int c123Example (.each [(2, .plain 3), (1, .scalar 1 0)]) = .ok [2, 3] := by decide +kernel

example : [2, 3] = ([2, 3] : List ℚ) ∧ ∀ d, d ∈ c123Example.dims ↔ d ∈ ([(2, .plain 3), (1, .scalar 1 0)] : List (Dim × Index)).map (·.1) :=
  ⟨rfl, ((C123_labels id (fun _ => true) (fun _ _ => some 1) .int c123Example [(2, .plain 3), (1, .scalar 1 0)] (by decide) [2, 3]).1 (by decide +kernel)).1⟩

example : deltaToPositional id (fun _ => true) (fun _ _ => some 1) .int c123Example 1 (.scalar (3 / 2) 0) = .ok ((3 : Int) : ℚ) :=
  (C123_steps (fun _ => true) (fun _ _ => some 1) c123Example 1 ⟨[0, 1 / 2, 1, 3 / 2], 0⟩ rfl rfl (by decide) (by decide +kernel) (3 / 2) 1 3 0 rfl (by decide +kernel)).2.2 3 (by decide +kernel)

/-- The sum over a plus-shaped footprint. -/
example : ∃ y, footprintFilter id (fun _ => true) (fun _ _ => some 1) (fun l => l.foldl (· + ·) 0) c123Example none
      (some ⟨[(1, 3), (2, 3)], fun o => o.contains 1⟩) (.all (.plain 0)) = .ok y ∧ y.at (fun d => if d = 1 then 5 else 7) = 285 :=
  ⟨_, rfl, by decide +kernel⟩

example := C123_footprint_partial id (fun _ => true) (fun _ _ => some 1) (fun l : List Int => l.foldl (· + ·) 0) c123Example (by decide) rfl rfl
  ⟨[(1, 3), (2, 3)], fun o => o.contains 1⟩ rfl (.all (.plain 0)) (fun _ => 0) rfl

example := C123_size id (fun _ => true) (fun _ _ => some 1) (fun l : List Int => l.foldl max 0) c123Example (by decide) rfl rfl
  (.each [(2, .plain 3), (1, .plain 2)]) (fun d => if d = 1 then 2 else 3) (by decide +kernel) (.each [(1, .plain 0), (2, .plain 1)]) (fun d => if d = 1 then 0 else 1) (by decide +kernel)

end Scipp.Props
