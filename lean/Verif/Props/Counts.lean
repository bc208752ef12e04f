import Verif.Model.Counts
import Verif.Spec.View
import Verif.Lemmas.Concat
import Mathlib.Algebra.BigOperators.Group.List.Basic
import Mathlib.Algebra.Field.Basic
import Mathlib.Tactic.FieldSimp
import Mathlib.Tactic.Ring
import Mathlib.Tactic.NormNum
import Mathlib.Data.Fin.VecNotation
/-
**C68**: conversion of counts to count densities and back.
-/
namespace Scipp.Props
open Counts Sizes
variable {n : Nat}

/-- The width of the bin at coordinates `c` along `d`: the difference of the two edges. -/
def widthAt (coords : Counts.Coords n) (d : Dim) (c : Dim → Int) : ℚ :=
  match coords d with
  | some coord => coord.arr.val (upd c d (c d + 1)) - coord.arr.val c
  | none => 0

/-- The unit of a coord. -/
def unitOf (coords : Counts.Coords n) (d : Dim) : PreciseUnit n :=
  match coords d with
  | some ⟨some p, _, _⟩ => p
  | _ => ⟨1, fun _ => 0⟩

private theorem prod_ne_zero' {α : Type} (f : α → ℚ) : ∀ l : List α, (∀ a ∈ l, f a ≠ 0) → (l.map f).prod ≠ 0 := by
  intro l
  induction l with
  | nil => intro _; simp
  | cons a l ih =>
    intro h
    rw [List.map_cons, List.prod_cons]
    exact mul_ne_zero (h a (by simp)) (ih fun b hb => h b (by simp [hb]))

private theorem shifted (c : Dim → Int) (dim : Dim) : (fun d => if d = dim then c d + 1 else c d) = upd c dim (c dim + 1) := by
  funext d
  simp only [upd]
  split
  · rename_i h; rw [h]
  · rfl

private theorem binWidth_ok {coord w : CVar n} {dim : Dim} (h : binWidth coord dim = .ok w) :
    coord.unit ≠ MUnit.one ∧ w.unit = coord.unit ∧ w.floating = coord.floating ∧ ∀ c, w.arr.val c = coord.arr.val (upd c dim (c dim + 1)) - coord.arr.val c := by
  unfold binWidth at h
  split at h
  · cases h
  rename_i h1
  split at h
  · cases h
  split at h
  · cases h
  split at h
  · cases h
  · injection h with h
    subst h
    exact ⟨h1, rfl, rfl, fun c => by simp only [shifted]⟩

private theorem widths_cons {coords : Counts.Coords n} {d : Dim} {ds : List Dim} {L : List (CVar n)} (h : getBinWidths coords (d :: ds) = .ok L) :
    ∃ coord w ws, coords d = some coord ∧ binWidth coord d = .ok w ∧ getBinWidths coords ds = .ok ws ∧ L = w :: ws := by
  unfold getBinWidths at h
  split at h
  · cases h
  rename_i coord hc
  split at h
  · cases h
  rename_i w hw
  split at h
  · cases h
  rename_i ws hws
  injection h with h
  exact ⟨coord, w, ws, hc, hw, hws, h.symm⟩

private theorem divideBy_ok {r : ExpRange n} {x w y : CVar n} {p : PreciseUnit n} (hx : x.unit = some p) (h : divideBy r x w = .ok y) :
    ∃ q, w.unit = some q ∧ y.unit = some (p.div q) ∧ y.arr.dims = x.arr.dims ∧ y.floating = x.floating ∧ x.floating = true ∧
      includes x.arr.dims w.arr.dims = true ∧ ∀ c, y.arr.val c = x.arr.val c / w.arr.val c := by
  unfold divideBy at h
  split at h
  · cases h
  rename_i hf
  split at h
  · cases h
  rename_i hi
  split at h
  · cases h
  · rename_i u hu
    injection h with h
    subst h
    rw [hx] at hu
    cases hw : w.unit with
    | none => rw [hw] at hu; simp [MUnit.div] at hu
    | some q =>
      rw [hw] at hu
      simp only [MUnit.div] at hu
      split at hu
      · injection hu with hu
        exact ⟨q, rfl, hu.symm, rfl, rfl, by simpa using hf, by simpa using hi, fun c => rfl⟩
      · cases hu

private theorem multiplyBy_ok {r : ExpRange n} {x w y : CVar n} {p : PreciseUnit n} (hx : x.unit = some p) (h : multiplyBy r x w = .ok y) :
    ∃ q, w.unit = some q ∧ y.unit = some (p.mul q) ∧ y.arr.dims = x.arr.dims ∧ y.floating = x.floating ∧ ∀ c, y.arr.val c = x.arr.val c * w.arr.val c := by
  unfold multiplyBy at h
  split at h
  · cases h
  split at h
  · cases h
  split at h
  · cases h
  · rename_i u hu
    injection h with h
    subst h
    rw [hx] at hu
    cases hw : w.unit with
    | none => rw [hw] at hu; simp [MUnit.mul] at hu
    | some q =>
      rw [hw] at hu
      simp only [MUnit.mul] at hu
      split at hu
      · injection hu with hu
        exact ⟨q, rfl, hu.symm, rfl, rfl, fun c => rfl⟩
      · cases hu

private theorem unitOf_eq {coords : Counts.Coords n} {d : Dim} {coord : CVar n} {q : PreciseUnit n} (h : coords d = some coord) (hq : coord.unit = some q) :
    unitOf coords d = q := by
  obtain ⟨u, f, a⟩ := coord
  simp only at hq
  subst hq
  simp [unitOf, h]

private theorem divide_all {r : ExpRange n} {coords : Counts.Coords n} : ∀ (ds : List Dim) (ws : List (CVar n)) (x y : CVar n) (p : PreciseUnit n),
    getBinWidths coords ds = .ok ws → x.unit = some p → applyAll (divideBy r) ws x = (y, .ok ()) →
    y.arr.dims = x.arr.dims ∧ y.floating = x.floating ∧ (∀ c, y.arr.val c = x.arr.val c / (ds.map fun d => widthAt coords d c).prod) ∧
    y.unit = some ⟨p.mult / (ds.map fun d => (unitOf coords d).mult).prod, fun i => p.exps i - (ds.map fun d => (unitOf coords d).exps i).sum⟩ := by
  intro ds
  induction ds with
  | nil =>
    intro ws x y p hw hx h
    simp only [getBinWidths, Except.ok.injEq] at hw
    subst hw
    simp only [applyAll, Prod.mk.injEq, and_true] at h
    subst h
    refine ⟨rfl, rfl, by simp, ?_⟩
    rw [hx]; simp
  | cons d ds ih =>
    intro L x y p hw hx h
    obtain ⟨coord, w, ws, hc, hb, hws, rfl⟩ := widths_cons hw
    obtain ⟨_, hwu, _, hwv⟩ := binWidth_ok hb
    simp only [applyAll] at h
    split at h
    · simp at h
    rename_i x1 h1
    obtain ⟨q, hq, hu, hd, hf, _, _, hv⟩ := divideBy_ok hx h1
    obtain ⟨h1, h2, h3, h4⟩ := ih ws x1 y _ hws hu h
    have hq' : unitOf coords d = q := unitOf_eq hc (hwu.symm.trans hq)
    refine ⟨h1.trans hd, h2.trans hf, fun c => ?_, ?_⟩
    · rw [h3, hv, hwv, div_div, List.map_cons, List.prod_cons]
      simp only [widthAt, hc]
    · rw [h4]
      simp only [PreciseUnit.div, List.map_cons, List.prod_cons, List.sum_cons, hq', div_div]
      congr 2
      funext i
      ring

private theorem multiply_all {r : ExpRange n} {coords : Counts.Coords n} : ∀ (ds : List Dim) (ws : List (CVar n)) (x y : CVar n) (p : PreciseUnit n),
    getBinWidths coords ds = .ok ws → x.unit = some p → applyAll (multiplyBy r) ws x = (y, .ok ()) →
    y.arr.dims = x.arr.dims ∧ y.floating = x.floating ∧ (∀ c, y.arr.val c = x.arr.val c * (ds.map fun d => widthAt coords d c).prod) ∧
    y.unit = some ⟨p.mult * (ds.map fun d => (unitOf coords d).mult).prod, fun i => p.exps i + (ds.map fun d => (unitOf coords d).exps i).sum⟩ := by
  intro ds
  induction ds with
  | nil =>
    intro ws x y p hw hx h
    simp only [getBinWidths, Except.ok.injEq] at hw
    subst hw
    simp only [applyAll, Prod.mk.injEq, and_true] at h
    subst h
    refine ⟨rfl, rfl, by simp, ?_⟩
    rw [hx]; simp
  | cons d ds ih =>
    intro L x y p hw hx h
    obtain ⟨coord, w, ws, hc, hb, hws, rfl⟩ := widths_cons hw
    obtain ⟨_, hwu, _, hwv⟩ := binWidth_ok hb
    simp only [applyAll] at h
    split at h
    · simp at h
    rename_i x1 h1
    obtain ⟨q, hq, hu, hd, hf, hv⟩ := multiplyBy_ok hx h1
    obtain ⟨h1, h2, h3, h4⟩ := ih ws x1 y _ hws hu h
    have hq' : unitOf coords d = q := unitOf_eq hc (hwu.symm.trans hq)
    refine ⟨h1.trans hd, h2.trans hf, fun c => ?_, ?_⟩
    · rw [h3, hv, hwv, mul_assoc, List.map_cons, List.prod_cons]
      simp only [widthAt, hc]
    · rw [h4]
      simp only [PreciseUnit.mul, List.map_cons, List.prod_cons, List.sum_cons, hq', mul_assoc]
      congr 2
      funext i
      ring

private theorem onCopy_ok {f : List (CVar n) → CVar n → CVar n × Except Err Unit} {coords : Counts.Coords n} {dims : List Dim} {x y : CVar n}
    (h : onCopy f coords dims x = .ok y) : ∃ ws, getBinWidths coords dims = .ok ws ∧ f ws x = (y, .ok ()) := by
  unfold onCopy at h
  split at h
  · cases h
  rename_i ws hws
  split at h
  · cases h
  · rename_i z hz
    injection h with h
    subst h
    exact ⟨ws, hws, hz⟩

/-- **C68** (densities): conversion of counts divides every element by the widths of its bin along the given dims, and the unit by the
units of their coords. -/
theorem C68_density (r : ExpRange n) (k : Fin n) (coords : Counts.Coords n) (dims : List Dim) (x y : CVar n) (hx : x.unit = counts k)
    (h : arrayToDensity r k coords dims x = .ok y) :
    y.arr.dims = x.arr.dims ∧ (∀ c, y.arr.val c = x.arr.val c / (dims.map fun d => widthAt coords d c).prod) ∧
    y.unit = some ⟨1 / (dims.map fun d => (unitOf coords d).mult).prod,
      fun i => (if i = k then 1 else 0) - (dims.map fun d => (unitOf coords d).exps i).sum⟩ := by
  obtain ⟨ws, hws, h⟩ := onCopy_ok h
  simp only [toDensity, isCounts, hx, decide_true, if_true] at h
  obtain ⟨h1, _, h3, h4⟩ := divide_all dims ws x y _ hws hx h
  exact ⟨h1, h3, h4⟩

/-- **C68** (round trip): counts converted to a density and back are the same counts, for bins with non-zero widths, if the density has
the unit of a count density. -/
theorem C68_round_trip (r : ExpRange n) (k : Fin n) (coords : Counts.Coords n) (dims : List Dim) (x y z : CVar n) (hx : x.unit = counts k)
    (h : arrayToDensity r k coords dims x = .ok y) (hd : isCountDensity k y.unit = true) (h' : arrayFromDensity r k coords dims y = .ok z)
    (hm : ∀ d ∈ dims, (unitOf coords d).mult ≠ 0) :
    z.unit = counts k ∧ z.arr.dims = x.arr.dims ∧ ∀ c, (∀ d ∈ dims, widthAt coords d c ≠ 0) → z.arr.val c = x.arr.val c := by
  obtain ⟨h1, h2, h3⟩ := C68_density r k coords dims x y hx h
  obtain ⟨ws, hws, h'⟩ := onCopy_ok h'
  have hn : isCounts k y.unit = false := by
    revert hd
    rw [h3]
    simp only [isCountDensity]
    cases isCounts k _ <;> simp
  simp only [fromDensity, hn, hd, if_true, Bool.false_eq_true, if_false] at h'
  obtain ⟨g1, _, g3, g4⟩ := multiply_all dims ws y z _ hws h3 h'
  refine ⟨?_, g1.trans h1, fun c hc => ?_⟩
  · rw [g4]
    have : (dims.map fun d => (unitOf coords d).mult).prod ≠ 0 := prod_ne_zero' _ _ hm
    rw [one_div, inv_mul_cancel₀ this, counts]
    congr 2
    funext i
    ring
  · rw [g3, h2, div_mul_cancel₀]
    exact prod_ne_zero' _ _ hc

/-- **C68** (round trip along one dim): it succeeds whenever the conversion to a density does, for a coord with a unit that does not contain
counts. Partial: the claim fails if the unit of the coord contains counts (`C68_wrong_for_counts`) and, for several dims, if their units cancel
(`C68_wrong_for_cancelling`). -/
theorem C68_round_trip_partial (r : ExpRange n) (k : Fin n) (coords : Counts.Coords n) (dim : Dim) (x y : CVar n) (hx : x.unit = counts k)
    (hr : r.fits ⟨1, fun i => if i = k then 1 else 0⟩ = true) (hk : (unitOf coords dim).exps k = 0) (hm : (unitOf coords dim).mult ≠ 0)
    (h : arrayToDensity r k coords [dim] x = .ok y) :
    ∃ z, arrayFromDensity r k coords [dim] y = .ok z ∧ z.unit = counts k ∧ z.arr.dims = x.arr.dims ∧
      ∀ c, widthAt coords dim c ≠ 0 → z.arr.val c = x.arr.val c := by
  obtain ⟨h1, h2, h3⟩ := C68_density r k coords [dim] x y hx h
  have hh := h
  obtain ⟨ws, hws, hto⟩ := onCopy_ok h
  obtain ⟨coord, w, ws', hc, hb, hws', rfl⟩ := widths_cons hws
  simp only [getBinWidths, Except.ok.injEq] at hws'
  subst hws'
  obtain ⟨hne, hwu, _, hwv⟩ := binWidth_ok hb
  simp only [toDensity, isCounts, hx, decide_true, if_true, applyAll] at hto
  split at hto
  · simp at hto
  rename_i x1 hdiv
  simp only [Prod.mk.injEq, and_true] at hto
  subst hto
  obtain ⟨q, hq, hu, hdd, hff, hf, hi, hv⟩ := divideBy_ok hx hdiv
  have hq' : unitOf coords dim = q := unitOf_eq hc (hwu.symm.trans hq)
  have hdens : isCountDensity k x1.unit = true := by
    rw [hu]
    simp only [isCountDensity, isCounts, Bool.and_eq_true, Bool.not_eq_true', decide_eq_false_iff_not, decide_eq_true_eq]
    rw [hq'] at hk hm
    refine ⟨fun he => ?_, by simp [PreciseUnit.div, hk]⟩
    apply hne
    simp only [counts, Option.some.injEq, PreciseUnit.div, PreciseUnit.mk.injEq] at he
    rw [← hwu, hq, MUnit.one]
    obtain ⟨qm, qe⟩ := q
    simp only at he hm
    congr 2
    · rw [one_div, inv_eq_one] at he; exact he.1
    · funext i
      have := congrFun he.2 i
      omega
  have hmulu : MUnit.mul r x1.unit w.unit = .ok (counts k) := by
    rw [hu, hq]
    rw [hq'] at hm
    have e : (PreciseUnit.div (⟨1, fun i => if i = k then 1 else 0⟩ : PreciseUnit n) q).mul q = ⟨1, fun i => if i = k then 1 else 0⟩ := by
      simp only [PreciseUnit.mul, PreciseUnit.div, PreciseUnit.mk.injEq]
      exact ⟨by field_simp, by funext i; ring⟩
    simp only [MUnit.mul, e, hr, if_true, counts]
  have hfrom : arrayFromDensity r k coords [dim] x1 =
      .ok ⟨counts k, x1.floating, x1.arr.dims, fun c => x1.arr.val c * w.arr.val c⟩ := by
    have hn : isCounts k x1.unit = false := by
      revert hdens
      rw [hu]
      simp only [isCountDensity]
      cases isCounts k _ <;> simp
    simp only [arrayFromDensity, onCopy, hws, fromDensity, hn, hdens, if_true, Bool.false_eq_true, if_false, applyAll, multiplyBy, hff, hf, hdd, hi,
      Bool.true_eq_false, false_and, hmulu]
  refine ⟨_, hfrom, ?_⟩
  have := C68_round_trip r k coords [dim] x x1 _ hx hh hdens hfrom (by simpa using hm)
  simpa using this

/-- **C68** (other units): data without counts in its unit is left as it is by both conversions, a density cannot be converted again, and counts are
left as they are by the conversion to counts. -/
theorem C68_other_units (r : ExpRange n) (k : Fin n) (coords : Counts.Coords n) (dims : List Dim) (ws : List (CVar n)) (x : CVar n)
    (hw : getBinWidths coords dims = .ok ws) :
    ((∀ p, x.unit = some p → p.exps k = 0) → arrayToDensity r k coords dims x = .ok x ∧ arrayFromDensity r k coords dims x = .ok x) ∧
    (x.unit = counts k → arrayFromDensity r k coords dims x = .ok x) ∧
    (∀ p, x.unit = some p → p.exps k ≠ 0 → x.unit ≠ counts k → arrayToDensity r k coords dims x = .error .runtime) := by
  refine ⟨fun h => ?_, fun h => ?_, fun p hp hk hn => ?_⟩
  · have h1 : isCounts k x.unit = false := by
      simp only [isCounts, decide_eq_false_iff_not]
      intro hc
      have := h _ hc
      simp at this
    have h2 : isCountDensity k x.unit = false := by
      cases hu : x.unit with
      | none => rfl
      | some p => simp [isCountDensity, h p hu]
    simp [arrayToDensity, arrayFromDensity, onCopy, hw, toDensity, fromDensity, h1, h2]
  · simp [arrayFromDensity, onCopy, hw, fromDensity, isCounts, h]
  · have h1 : isCounts k x.unit = false := by simpa [isCounts] using hn
    have h2 : isCountDensity k x.unit = true := by
      rw [hp] at h1 ⊢
      simp [isCountDensity, h1, hk]
    simp [arrayToDensity, onCopy, hw, toDensity, h1, h2]

private theorem onItems_other {f : CVar n → CVar n × Except Err Unit} : ∀ (items : List Nat) (σ : Nat → CVar n) (i : Nat), i ∉ items → (onItems f items σ).1 i = σ i := by
  intro items
  induction items with
  | nil => intro σ i _; rfl
  | cons j js ih =>
    intro σ i hi
    simp only [List.mem_cons, not_or] at hi
    simp only [onItems]
    split
    · simp [hi.1]
    · rw [ih _ _ hi.2]; simp [hi.1]

/-- **C68** (datasets): if the conversion of a dataset succeeds, every item has been converted like a data array, and no other data has changed. Partial: it
is the data of the input that changes (`C68_wrong_for_dataset`), and items must not share their data. -/
theorem C68_dataset_partial (r : ExpRange n) (k : Fin n) (coords : Counts.Coords n) (dims : List Dim) (items : List Nat) (hn : items.Nodup)
    (σ σ' : Nat → CVar n) (h : datasetToDensity r k coords dims items σ = (σ', .ok ())) (i : Nat) :
    if i ∈ items then arrayToDensity r k coords dims (σ i) = .ok (σ' i) else σ' i = σ i := by
  unfold datasetToDensity onDataset at h
  split at h
  · simp at h
  rename_i ws hws
  have key : ∀ (items : List Nat), items.Nodup → ∀ σ : Nat → CVar n, onItems (toDensity r k ws) items σ = (σ', .ok ()) →
      if i ∈ items then toDensity r k ws (σ i) = (σ' i, .ok ()) else σ' i = σ i := by
    intro items
    induction items with
    | nil => intro _ σ h; simp only [onItems, Prod.mk.injEq, and_true] at h; simp [h]
    | cons j js ih =>
      intro hn σ h
      rw [List.nodup_cons] at hn
      simp only [onItems] at h
      split at h
      · simp at h
      rename_i y hy
      have := ih hn.2 _ h
      by_cases hj : i = j
      · subst hj
        rw [if_neg hn.1, if_pos rfl] at this
        simp [hy, this]
      · by_cases hi : i ∈ js
        · rw [if_pos hi, if_neg hj] at this
          simp [hi, this]
        · rw [if_neg hi, if_neg hj] at this
          simp [hi, hj, this]
  have := key items hn σ h
  split
  · rename_i hi
    rw [if_pos hi] at this
    simp [arrayToDensity, onCopy, hws, this]
  · rename_i hi
    rwa [if_neg hi] at this

/-- **C68** (datasets, nothing else): data that is not an item of the dataset never changes. -/
theorem C68_dataset_only_items (r : ExpRange n) (k : Fin n) (coords : Counts.Coords n) (dims : List Dim) (items : List Nat) (σ : Nat → CVar n) (i : Nat)
    (hi : i ∉ items) : (datasetToDensity r k coords dims items σ).1 i = σ i ∧ (datasetFromDensity r k coords dims items σ).1 i = σ i := by
  unfold datasetToDensity datasetFromDensity onDataset
  constructor
  · split
    · rfl
    · exact onItems_other _ _ _ hi
  · split
    · rfl
    · exact onItems_other _ _ _ hi

private theorem binWidth_iff {coord : CVar n} {d : Dim} (hw : WF coord.arr.dims) :
    (∃ w, binWidth coord d = .ok w) ↔ coord.unit ≠ MUnit.one ∧ ∃ len, (d, len) ∈ coord.arr.dims ∧ 1 ≤ len := by
  unfold binWidth
  constructor
  · rintro ⟨w, h⟩
    split at h
    · cases h
    rename_i hu
    split at h
    · cases h
    rename_i len hl
    split at h
    · cases h
    rename_i h1
    exact ⟨hu, len, at?_ok_mem hl, by omega⟩
  · rintro ⟨hu, len, hl, h1⟩
    obtain ⟨s, hs⟩ := Concat.resize_exists (mem_labels hl) (show 0 ≤ len - 1 by omega)
    rw [if_neg hu, at?_of_mem hw.1 hl]
    simp only [if_neg (show ¬len < 1 by omega), hs]
    exact ⟨_, rfl⟩

/-- **C68** (bin widths): they exist if and only if for each of the dims there is a coord with that name, with this dim, at least one element along
it, and a unit other than dimensionless. -/
theorem C68_widths_iff (coords : Counts.Coords n) (hw : ∀ d coord, coords d = some coord → WF coord.arr.dims) (dims : List Dim) :
    (∃ ws, getBinWidths coords dims = .ok ws) ↔
      ∀ d ∈ dims, ∃ coord, coords d = some coord ∧ coord.unit ≠ MUnit.one ∧ ∃ len, (d, len) ∈ coord.arr.dims ∧ 1 ≤ len := by
  induction dims with
  | nil => simp [getBinWidths]
  | cons d ds ih =>
    rw [List.forall_mem_cons, ← ih]
    constructor
    · rintro ⟨L, h⟩
      obtain ⟨coord, w, ws, h1, h2, h3, h4⟩ := widths_cons h
      exact ⟨⟨coord, h1, (binWidth_iff (hw d coord h1)).1 ⟨w, h2⟩⟩, ws, h3⟩
    · rintro ⟨⟨coord, h1, h2⟩, ws, h3⟩
      obtain ⟨w, hw'⟩ := (binWidth_iff (hw d coord h1)).2 h2
      exact ⟨w :: ws, by simp only [getBinWidths, h1, hw', h3]⟩

private theorem width_dims {coord w : CVar n} {d : Dim} (hw : WF coord.arr.dims) (h : binWidth coord d = .ok w) :
    WF w.arr.dims ∧ w.unit = coord.unit ∧ w.floating = coord.floating ∧
      ∀ D : Dims, (∀ p ∈ w.arr.dims, p ∈ D) ↔ ∀ p ∈ coord.arr.dims, (p.1, if p.1 = d then p.2 - 1 else p.2) ∈ D := by
  unfold binWidth at h
  split at h
  · cases h
  split at h
  · cases h
  rename_i len hl
  split at h
  · cases h
  split at h
  · cases h
  rename_i s hs
  injection h with h
  subst h
  obtain ⟨r1, r2, r3⟩ := Concat.resize_mem hw.1 hs
  refine ⟨resize_WF hs hw, rfl, rfl, fun D => ⟨fun h p hp => ?_, fun h p hp => ?_⟩⟩
  · by_cases he : p.1 = d
    · have : p.2 = len := by
        have h1 := at?_of_mem hw.1 (show (p.1, p.2) ∈ coord.arr.dims from hp)
        rw [he, hl] at h1
        injection h1 with h1
        exact h1.symm
      rw [if_pos he, he, this]
      exact h _ r1
    · rw [if_neg he]
      exact h _ ((r3 p he).2 hp)
  · by_cases he : p.1 = d
    · have hps : p ∈ s := hp
      have h1 := at?_of_mem (resize_WF hs hw).1 (show (p.1, p.2) ∈ s from hps)
      have h2 := at?_of_mem (resize_WF hs hw).1 r1
      rw [he, h2] at h1
      injection h1 with h1
      have h3 := h (d, len) (at?_ok_mem hl)
      simp only [if_true] at h3
      rw [h1, ← he] at h3
      exact h3
    · have h3 := h p ((r3 p he).1 hp)
      rwa [if_neg he] at h3

/-- **C68** (which conversions of counts to densities succeed): besides the bin widths it takes data of floating-point numbers with the dims
of the coord, one element less along `dim`, and units that can be divided. -/
theorem C68_to_density_iff (r : ExpRange n) (k : Fin n) (coords : Counts.Coords n) (dim : Dim) (coord x : CVar n) (hc : coords dim = some coord)
    (hw : WF coord.arr.dims) (hxw : WF x.arr.dims) (hx : x.unit = counts k) :
    (∃ y, arrayToDensity r k coords [dim] x = .ok y) ↔
      coord.unit ≠ MUnit.one ∧ (∃ len, (dim, len) ∈ coord.arr.dims ∧ 1 ≤ len) ∧ x.floating = true ∧
      (∀ p ∈ coord.arr.dims, (p.1, if p.1 = dim then p.2 - 1 else p.2) ∈ x.arr.dims) ∧ ∃ u, MUnit.div r x.unit coord.unit = .ok u := by
  have hcount : isCounts k x.unit = true := by simp [isCounts, hx]
  unfold arrayToDensity onCopy
  by_cases hb : ∃ w, binWidth coord dim = .ok w
  · obtain ⟨hu, hl⟩ := (binWidth_iff hw).1 hb
    obtain ⟨w, hb⟩ := hb
    obtain ⟨w1, w2, w3, w4⟩ := width_dims hw hb
    have hinc := includes_iff hxw.1 w1.1
    rw [w4] at hinc
    simp only [getBinWidths, hc, hb, toDensity, hcount, if_true, applyAll, divideBy]
    by_cases hf : x.floating = true
    · by_cases hi : includes x.arr.dims w.arr.dims = true
      · rw [if_neg (by simp [hf]), if_neg (by simp [hi]), w2]
        cases hd : MUnit.div r x.unit coord.unit with
        | error e => simp
        | ok u => simp only [Except.ok.injEq, exists_eq', and_true, true_iff]; exact ⟨hu, hl, hf, hinc.1 hi⟩
      · rw [if_neg (by simp [hf]), if_pos (by simpa using hi)]
        simp only [reduceCtorEq, exists_false, false_iff]
        exact fun h => hi (hinc.2 h.2.2.2.1)
    · rw [if_pos (by simpa using hf)]
      simp [hf]
  · constructor
    · rintro ⟨y, h⟩
      exfalso
      cases he : binWidth coord dim with
      | error e => simp only [getBinWidths, hc, he] at h; cases h
      | ok w => exact hb ⟨w, he⟩
    · rintro ⟨h1, h2, -⟩
      exact absurd ((binWidth_iff hw).2 ⟨h1, h2⟩) hb

/-- **C68** (which conversions of densities to counts succeed): integers can only be multiplied by the widths of bins with integer edges. -/
theorem C68_from_density_iff (r : ExpRange n) (k : Fin n) (coords : Counts.Coords n) (dim : Dim) (coord x : CVar n) (hc : coords dim = some coord)
    (hw : WF coord.arr.dims) (hxw : WF x.arr.dims) (p : PreciseUnit n) (hx : x.unit = some p) (hk : p.exps k ≠ 0) (hne : x.unit ≠ counts k) :
    (∃ y, arrayFromDensity r k coords [dim] x = .ok y) ↔
      coord.unit ≠ MUnit.one ∧ (∃ len, (dim, len) ∈ coord.arr.dims ∧ 1 ≤ len) ∧ (x.floating = true ∨ coord.floating = false) ∧
      (∀ p ∈ coord.arr.dims, (p.1, if p.1 = dim then p.2 - 1 else p.2) ∈ x.arr.dims) ∧ ∃ u, MUnit.mul r x.unit coord.unit = .ok u := by
  have hcount : isCounts k x.unit = false := by simp [isCounts, hne]
  have hdens : isCountDensity k x.unit = true := by rw [hx] at hcount ⊢; simp [isCountDensity, hcount, hk]
  unfold arrayFromDensity onCopy
  by_cases hb : ∃ w, binWidth coord dim = .ok w
  · obtain ⟨hu, hl⟩ := (binWidth_iff hw).1 hb
    obtain ⟨w, hb⟩ := hb
    obtain ⟨w1, w2, w3, w4⟩ := width_dims hw hb
    have hinc := includes_iff hxw.1 w1.1
    rw [w4] at hinc
    simp only [getBinWidths, hc, hb, fromDensity, hcount, hdens, Bool.false_eq_true, if_false, if_true, applyAll, multiplyBy, w3]
    by_cases hf : x.floating = true ∨ coord.floating = false
    · have hf' : ¬(x.floating = false ∧ coord.floating = true) := by
        rcases hf with h | h <;> simp [h]
      by_cases hi : includes x.arr.dims w.arr.dims = true
      · rw [if_neg hf', if_neg (by simp [hi]), w2]
        cases hd : MUnit.mul r x.unit coord.unit with
        | error e => simp
        | ok u => simp only [Except.ok.injEq, exists_eq', and_true, true_iff]; exact ⟨hu, hl, hf, hinc.1 hi⟩
      · rw [if_neg hf', if_pos (by simpa using hi)]
        simp only [reduceCtorEq, exists_false, false_iff]
        exact fun h => hi (hinc.2 h.2.2.2.1)
    · have hf' : x.floating = false ∧ coord.floating = true := by
        constructor
        · cases h : x.floating with
          | false => rfl
          | true => exact absurd (.inl h) hf
        · cases h : coord.floating with
          | true => rfl
          | false => exact absurd (.inr h) hf
      rw [if_pos hf']
      simp only [reduceCtorEq, exists_false, false_iff]
      exact fun h => hf h.2.2.1
  · constructor
    · rintro ⟨y, h⟩
      exfalso
      cases he : binWidth coord dim with
      | error e => simp only [getBinWidths, hc, he] at h; cases h
      | ok w => exact hb ⟨w, he⟩
    · rintro ⟨h1, h2, -⟩
      exact absurd ((binWidth_iff hw).2 ⟨h1, h2⟩) hb

/- Concrete cases. Base units: counts and seconds. -/
private def rr : ExpRange 2 := fun _ => (-8, 7)
private def sec : MUnit 2 := some ⟨1, ![0, 1]⟩
private def edges (u : MUnit 2) (d : Dim) : CVar 2 := ⟨u, true, [(d, 3)], fun c => (c d : ℚ) ^ 2 + c d⟩
private def coords1 : Counts.Coords 2 := fun d => if d = 3 then some (edges sec 3) else none
private def data (u : MUnit 2) : CVar 2 := ⟨u, true, [(3, 2)], fun c => 12 + c 3⟩

/-- Counts 12 and 13 in bins of widths 2 s and 4 s. -/
example : ∃ y, arrayToDensity rr 0 coords1 [3] (data (counts 0)) = .ok y ∧ y.arr.val (fun _ => 1) = 13 / 4 ∧
    ∃ z, arrayFromDensity rr 0 coords1 [3] y = .ok z ∧ z.unit = counts 0 ∧ z.arr.val (fun _ => 1) = 13 := by
  have h : arrayToDensity rr 0 coords1 [3] (data (counts 0)) = .ok _ := rfl
  refine ⟨_, h, ?_, ?_⟩
  · rw [(C68_density rr 0 coords1 [3] _ _ rfl h).2.1]
    simp [widthAt, coords1, edges, data, upd]; norm_num
  · obtain ⟨z, hz, hu, _, hv⟩ := C68_round_trip_partial rr 0 coords1 3 _ _ rfl (by decide) (by decide) (by decide +kernel) h
    refine ⟨z, hz, hu, ?_⟩
    rw [hv _ (by simp [widthAt, coords1, edges, upd]; norm_num)]
    simp [data]; norm_num

example := C68_widths_iff coords1 (fun d coord h => by
  unfold coords1 at h
  split at h
  · injection h with h; subst h; simp [edges, WF, labels]
  · cases h) [3]

example := C68_to_density_iff rr 0 coords1 3 _ (data (counts 0)) rfl (by simp [edges, WF, labels]) (by simp [data, WF, labels]) rfl

/-- Counts per second stored as integers cannot be multiplied by the widths of bins with floating-point edges. -/
example : ¬∃ y, arrayFromDensity rr 0 coords1 [3] { data (some ⟨1, ![1, -1]⟩) with floating := false } = .ok y := by
  rw [C68_from_density_iff rr 0 coords1 3 _ _ rfl (by simp [edges, WF, labels]) (by simp [data, WF, labels]) ⟨1, ![1, -1]⟩ rfl (by decide)
    (by decide +kernel)]
  simp [edges]

example := C68_other_units rr 0 coords1 [3] _ (data sec) rfl

example := C68_dataset_partial rr 0 coords1 [3] [0, 1] (by decide) (fun i => if i = 0 then data (counts 0) else data sec) _ rfl 1

example := C68_dataset_only_items rr 0 coords1 [3] [0, 1] (fun i => if i = 0 then data (counts 0) else data sec) 2 (by decide)

/-- **C68** violated: converting a dataset changes the dataset that is passed as (constant) input. -/
theorem C68_wrong_for_dataset :
    ((datasetToDensity rr 0 coords1 [3] [0] (fun _ => data (counts 0))).1 0).arr.val (fun _ => 0) = 6 ∧ (data (counts 0)).arr.val (fun _ => 0) = 12 := by
  decide +kernel

/-- **C68** violated: if a later item cannot be converted, the items before it have been converted. -/
theorem C68_wrong_after_error :
    let res := datasetToDensity rr 0 coords1 [3] [0, 1] (fun i => if i = 0 then data (counts 0) else data (some ⟨1, ![1, -1]⟩))
    res.2.isOk = false ∧ (res.1 0).arr.val (fun _ => 0) = 6 := by
  decide +kernel

private theorem holds_of {e : Except Err (CVar 2)} {g : CVar 2 → Except Err (CVar 2)} {f : CVar 2 → Bool}
    (h : (match e with | .ok y => (match g y with | .ok z => f z | .error _ => false) | .error _ => false) = true) :
    ∃ y z, e = .ok y ∧ g y = .ok z ∧ f z = true := by
  cases e with
  | error _ => cases h
  | ok y =>
    cases hg : g y with
    | error _ => simp [hg] at h
    | ok z => exact ⟨y, z, rfl, hg, by simpa [hg] using h⟩

/-- **C68** violated: with a coord in counts, the density is not converted back. -/
theorem C68_wrong_for_counts :
    let coords : Counts.Coords 2 := fun d => if d = 3 then some (edges (counts 0) 3) else none
    ∃ y z, arrayToDensity rr 0 coords [3] (data (counts 0)) = .ok y ∧ arrayFromDensity rr 0 coords [3] y = .ok z ∧ z.unit = MUnit.one ∧
      z.arr.val (fun _ => 0) = 6 :=
  holds_of (f := fun z => decide (z.unit = MUnit.one ∧ z.arr.val (fun _ => 0) = 6)) (by decide +kernel) |>.imp fun _ h => h.imp fun _ h =>
    ⟨h.1, h.2.1, of_decide_eq_true h.2.2⟩

/-- **C68** violated: with coords in seconds and in hertz, the density has the unit counts and is not converted back. -/
theorem C68_wrong_for_cancelling :
    let coords : Counts.Coords 2 := fun d => if d = 3 then some (edges sec 3) else if d = 4 then some (edges (some ⟨1, ![0, -1]⟩) 4) else none
    let x : CVar 2 := ⟨counts 0, true, [(3, 2), (4, 2)], fun _ => 12⟩
    ∃ y z, arrayToDensity rr 0 coords [3, 4] x = .ok y ∧ arrayFromDensity rr 0 coords [3, 4] y = .ok z ∧ z.arr.val (fun _ => 0) = 3 :=
  holds_of (f := fun z => decide (z.arr.val (fun _ => 0) = 3)) (by decide +kernel) |>.imp fun _ h => h.imp fun _ h =>
    ⟨h.1, h.2.1, of_decide_eq_true h.2.2⟩

end Scipp.Props
