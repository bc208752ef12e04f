import Verif.Spec.Interp
import Mathlib.Data.List.Nodup
import Mathlib.Tactic.FieldSimp
import Mathlib.Tactic.Ring
/-!
C124: interpolation along a dim.
-/
namespace Scipp.Props
open Scipp Scipp.Interp

/-- **C124** The points used are those which are not masked; a mask that depends on the dim and others is an error. -/
theorem C124_used (a : Arr) (d : Dim) (is : List Nat) :
    unmasked a d = .ok is ↔ (∀ m ∈ a.masks, d ∈ m.dims → m.dims = [d]) ∧ Used a d is := by
  have hcond : ((a.masks.filter (fun m => m.dims.contains d)).all (fun m => m.dims == [d])) = true ↔ ∀ m ∈ a.masks, d ∈ m.dims → m.dims = [d] := by
    rw [List.all_eq_true]
    constructor
    · intro h m hm hd
      simpa using h m (List.mem_filter.2 ⟨hm, List.contains_iff_mem.2 hd⟩)
    · intro h m hm
      obtain ⟨h1, h2⟩ := List.mem_filter.1 hm
      simpa using h m h1 (List.contains_iff_mem.1 h2)
  have hany : ∀ i, ((a.masks.filter (fun m => m.dims.contains d)).any (fun m => m.masked (fun _ => i))) = true ↔ Hidden a d i := by
    intro i
    rw [List.any_eq_true]
    constructor
    · rintro ⟨m, hm, h⟩
      obtain ⟨h1, h2⟩ := List.mem_filter.1 hm
      exact ⟨m, h1, List.contains_iff_mem.1 h2, h⟩
    · rintro ⟨m, hm, hd, h⟩
      exact ⟨m, List.mem_filter.2 ⟨hm, List.contains_iff_mem.2 hd⟩, h⟩
  have hused : Used a d ((List.range (a.size d)).filter (fun i => !(a.masks.filter (fun m => m.dims.contains d)).any (fun m => m.masked (fun _ => i)))) := by
    refine ⟨fun i => ?_, ?_⟩
    · rw [List.mem_filter, List.mem_range, Bool.not_eq_true', ← Bool.not_eq_true, hany]
    · exact List.Pairwise.filter _ List.pairwise_lt_range
  unfold unmasked
  simp only
  by_cases h : ((a.masks.filter (fun m => m.dims.contains d)).all (fun m => m.dims == [d])) = true
  · rw [if_pos h]
    constructor
    · intro he
      obtain rfl := Except.ok.inj he
      exact ⟨hcond.1 h, hused⟩
    · rintro ⟨_, hu⟩
      congr 1
      refine List.Perm.eq_of_pairwise ?_ hused.ordered hu.ordered ?_
      · intro x y _ _ h1 h2
        exact absurd h1 (Nat.lt_asymm h2)
      · exact (List.perm_ext_iff_of_nodup (hused.ordered.imp Nat.ne_of_lt) (hu.ordered.imp Nat.ne_of_lt)).2 fun i => (hused.all i).trans (hu.all i).symm
  · rw [if_neg h]
    constructor
    · intro he; cases he
    · rintro ⟨hm, _⟩; exact absurd (hcond.2 hm) h

theorem find_map_coord (l : List Coord) (d : Dim) (f : Coord → Coord) (hf : ∀ x, (f x).name = x.name) : (l.map f).find? (fun x => x.name == d) = (l.find? (fun x => x.name == d)).map f := by
  induction l with
  | nil => rfl
  | cons x l ih =>
    rw [List.map_cons, List.find?_cons, List.find?_cons, hf]
    split
    · rfl
    · exact ih

theorem range_getD {α : Type} (is : List Nat) (f : Nat → α) : ((List.range is.length).map fun i => f (is.getD i 0)) = is.map f := by
  apply List.ext_getElem
  · simp
  · intro i h1 h2
    have : i < is.length := by simpa using h2
    rw [List.getElem_map, List.getElem_map, List.getElem_range, List.getD_eq_getElem?_getD, List.getElem?_eq_getElem this]
    rfl

/-- What `interp1d` returns, if nothing is wrong. -/
theorem interp1d_eq (S : List ℚ → List ℚ → ℚ → ℚ) (a : Arr) (d : Dim) (p : Points) (mid : Bool) (x : Coord) (hv : a.variances = false) (hd : d ∈ a.dims) (hx : IsCoord a d x) (is : List Nat) (hi : unmasked a d = .ok is)
    (hu : p.unit = x.unit) (hp : p.dims = [d]) :
    interp1d S a d p mid = .ok {
      dims := a.dims
      size := fun e => if e = d then (newPoints p mid).1 else a.size e
      values := fun c => store a.integer (S (is.map fun i => x.values (along c d i)) (is.map fun i => a.values (along c d i)) ((newPoints p mid).2 (c d)))
      integer := a.integer
      variances := false
      unit := a.unit
      coords := newCoord d p :: keptCoords a d
      masks := keptMasks a d } := by
  obtain ⟨h1, h2, h3⟩ := hx
  have hfind : (x.dims.zip x.lens).find? (fun e => e.1 == d) = some (d, a.size d) := by
    rw [h2, h3]
    simp
  unfold interp1d
  simp only [hv, h1, hfind, Bool.false_eq_true, if_false]
  rw [if_neg (by rw [List.contains_iff_mem.2 hd]; simp), if_neg (by simp)]
  simp only [dropMasked, hi, func]
  rw [find_map_coord _ _ _ (fun y => by split <;> rfl), h1]
  simp only [Option.map_some]
  have hxd : x.dims.contains d = true := by rw [h2]; simp
  simp only [hxd, if_true]
  rw [if_neg (fun h => h hu), if_neg (fun h => h hp), if_neg (fun h => h h2)]
  congr 2
  · funext e
    split <;> rfl
  · funext c
    congr 1
    unfold evaluate
    simp only [if_true]
    have hal : ∀ i j, along (along c d i) d j = along c d j := by
      intro i j
      funext e
      simp only [along]
      split <;> rfl
    have hself : ∀ i, along c d i d = i := fun i => by simp [along]
    simp only [hal, hself]
    rw [range_getD is (fun i => x.values (along c d i)), range_getD is (fun i => a.values (along c d i))]

/-- **C124** (partial: the data is no integer) Interpolation succeeds for data without variances which has a coord for the dim that is no bin edge and no masks depending on the dim and others. The result in every row along the dim
is the interpolation of exactly the points of this row which are not masked, with their own coords, at the new points or the middle between new points. -/
theorem C124_points_partial (S : List ℚ → List ℚ → ℚ → ℚ) (a : Arr) (d : Dim) (p : Points) (mid : Bool) (x : Coord) (hv : a.variances = false) (hd : d ∈ a.dims) (hx : IsCoord a d x) (hn : a.integer = false)
    (hm : ∀ m ∈ a.masks, d ∈ m.dims → m.dims = [d]) (is : List Nat) (hi : Used a d is) (hu : p.unit = x.unit) (hp : p.dims = [d]) :
    ∃ y, interp1d S a d p mid = .ok y ∧ y.dims = a.dims ∧ (∀ e, e ≠ d → y.size e = a.size e) ∧ y.size d = (if mid then p.n - 1 else p.n) ∧ y.unit = a.unit ∧
      ∀ c, ∃ v, IsNew p mid (c d) v ∧ y.values c = S (is.map fun i => x.values (along c d i)) (is.map fun i => a.values (along c d i)) v := by
  refine ⟨_, interp1d_eq S a d p mid x hv hd hx is ((C124_used a d is).2 ⟨hm, hi⟩) hu hp, rfl, ?_, ?_, rfl, ?_⟩
  · intro e he
    simp [he]
  · cases mid <;> simp [newPoints]
  · intro c
    refine ⟨(newPoints p mid).2 (c d), ⟨?_, ?_⟩, ?_⟩
    · rintro rfl; rfl
    · rintro rfl
      simp only [newPoints]
      field_simp
      ring
    · simp [store, hn]

/-- **C124** The coords of the result are the new points, as coord of the dim, and those of the input which do not depend on the dim; the masks are those of the input which do not depend on the dim. -/
theorem C124_metadata (S : List ℚ → List ℚ → ℚ → ℚ) (a y : Arr) (d : Dim) (p : Points) (mid : Bool) (h : interp1d S a d p mid = .ok y) :
    (∃ z, z.name = d ∧ z.dims = [d] ∧ z.lens = [p.n] ∧ z.unit = p.unit ∧ (∀ c, z.values c = p.values (c d)) ∧ ∀ w, w ∈ y.coords ↔ w = z ∨ (w ∈ a.coords ∧ d ∉ w.dims)) ∧
    ∀ m, m ∈ y.masks ↔ m ∈ a.masks ∧ d ∉ m.dims := by
  have hfunc : ∃ b, func S a b d p mid = .ok y := by
    unfold interp1d at h
    split at h
    · cases h
    split at h
    · cases h
    split at h
    · cases h
    split at h
    · cases h
    split at h
    · cases h
    split at h
    · cases h
    · rename_i b _
      exact ⟨b, h⟩
  obtain ⟨b, hb⟩ := hfunc
  unfold func at hb
  split at hb
  · cases hb
  split at hb
  · cases hb
  split at hb
  · cases hb
  split at hb
  · cases hb
  obtain rfl := Except.ok.inj hb
  refine ⟨⟨newCoord d p, rfl, rfl, rfl, rfl, fun c => rfl, fun w => ?_⟩, fun m => ?_⟩
  · simp only [List.mem_cons, keptCoords, List.mem_filter, Bool.not_eq_true', ← Bool.not_eq_true, List.contains_iff_mem]
  · simp only [keptMasks, List.mem_filter, Bool.not_eq_true', ← Bool.not_eq_true, List.contains_iff_mem]

theorem func_ok {S : List ℚ → List ℚ → ℚ → ℚ} {a b y : Arr} {d : Dim} {p : Points} {mid : Bool} (h : func S a b d p mid = .ok y) :
    ∃ x, b.coords.find? (fun z => z.name == d) = some x ∧ p.unit = x.unit ∧ p.dims = [d] ∧ x.dims = [d] := by
  unfold func at h
  split at h
  · cases h
  rename_i x hx
  split at h
  · cases h
  rename_i h1
  split at h
  · cases h
  rename_i h2
  split at h
  · cases h
  rename_i h3
  exact ⟨x, hx, not_not.1 h1, not_not.1 h2, not_not.1 h3⟩

/-- **C124** Rejected are: data with variances, no coord for the dim, bin edges, masks which depend on the dim and others, new points with another unit or dim. -/
theorem C124_rejects (S : List ℚ → List ℚ → ℚ → ℚ) (a y : Arr) (d : Dim) (p : Points) (mid : Bool) (h : interp1d S a d p mid = .ok y) :
    a.variances = false ∧ d ∈ a.dims ∧ (∀ m ∈ a.masks, d ∈ m.dims → m.dims = [d]) ∧ p.dims = [d] ∧
    ∃ x, a.coords.find? (fun z => z.name == d) = some x ∧ x.dims = [d] ∧ p.unit = x.unit ∧ ∀ n, x.lens = [n] → n = a.size d := by
  unfold interp1d at h
  split at h
  · cases h
  rename_i hv
  split at h
  · cases h
  rename_i x hx
  split at h
  · cases h
  rename_i e he
  split at h
  · cases h
  rename_i hd
  split at h
  · cases h
  rename_i hn
  split at h
  · cases h
  rename_i b hb
  unfold dropMasked at hb
  split at hb
  · cases hb
  rename_i is his
  obtain rfl := Except.ok.inj hb
  obtain ⟨x', hx', hu, hp, hxd⟩ := func_ok h
  simp only at hx'
  rw [find_map_coord _ _ _ (fun y => by split <;> rfl), hx, Option.map_some] at hx'
  have hx' := Option.some.inj hx'
  have hdims : x.dims = [d] := by rw [← hxd, ← hx']; split <;> rfl
  have hunit : p.unit = x.unit := by rw [hu, ← hx']; split <;> rfl
  refine ⟨by simpa using hv, by simpa using hd, ((C124_used a d is).1 his).1, hp, x, hx, hdims, hunit, ?_⟩
  intro n hl
  rw [hdims, hl] at he
  have : e = (d, n) := by simpa using he.symm
  rw [this] at hn
  exact not_not.1 hn

/-- Two points with values 0 and 1. -/
def c124Data (integer : Bool) : Arr := ⟨[1], fun _ => 2, fun c => c 1, integer, false, 0, [⟨1, [1], [2], fun c => c 1, 0⟩], []⟩

/-- Linear interpolation between the first two points. -/
def c124Linear : List ℚ → List ℚ → ℚ → ℚ
  | x0 :: x1 :: _, y0 :: y1 :: _, x => y0 + (x - x0) * (y1 - y0) / (x1 - x0)
  | _, _, _ => 0

/-- **C124** fails for integers: results are converted to the dtype of the input, i.e., truncated. Linear interpolation between 0 and 1 gives 0 at nine tenths of the way. -/
theorem C124_wrong_integer (S : List ℚ → List ℚ → ℚ → ℚ) (a y : Arr) (d : Dim) (p : Points) (mid : Bool) (h : interp1d S a d p mid = .ok y) (hi : a.integer = true) :
    (∀ c, ∃ k : Int, y.values c = k) ∧ c124Linear [0, 1] [0, 1] (9 / 10) = 9 / 10 ∧
    ∃ z, interp1d c124Linear (c124Data true) 1 ⟨[1], 1, fun _ => 9 / 10, 0⟩ false = .ok z ∧ z.values (fun _ => 0) = 0 := by
  refine ⟨?_, by decide +kernel, _, rfl, by decide +kernel⟩
  unfold interp1d at h
  split at h
  · cases h
  split at h
  · cases h
  split at h
  · cases h
  split at h
  · cases h
  split at h
  · cases h
  split at h
  · cases h
  rename_i b hb
  have hbi : b.integer = true := by
    unfold dropMasked at hb
    split at hb
    · cases hb
    · obtain rfl := Except.ok.inj hb
      exact hi
  unfold func at h
  split at h
  · cases h
  split at h
  · cases h
  split at h
  · cases h
  split at h
  · cases h
  obtain rfl := Except.ok.inj h
  intro c
  simp only [store, hbi, if_true]
  exact ⟨_, rfl⟩

/-! Cases meeting the hypotheses. -/

/-- Data with dims 1 and 2, three points along dim 1 of which the second is masked. -/
def c124Example : Arr := ⟨[1, 2], fun d => if d = 1 then 3 else 2, fun c => (c 1) * (c 1) + 10 * c 2, false, false, 0,
  [⟨1, [1], [3], fun c => 2 * c 1, 0⟩, ⟨2, [2], [2], fun c => c 2, 0⟩, ⟨3, [1, 2], [3, 2], fun c => c 1 + c 2, 0⟩],
  [⟨0, [1], fun c => decide (c 1 = 1)⟩, ⟨1, [2], fun c => decide (c 2 = 1)⟩]⟩

theorem c124_used : Used c124Example 1 [0, 2] := ((C124_used c124Example 1 [0, 2]).1 (by decide +kernel)).2

example := C124_points_partial c124Linear c124Example 1 ⟨[1], 2, fun i => i, 0⟩ false ⟨1, [1], [3], fun c => 2 * c 1, 0⟩ rfl (by decide) ⟨rfl, rfl, rfl⟩ rfl
  (by intro m hm; simp only [c124Example, List.mem_cons, List.not_mem_nil, or_false] at hm; rcases hm with rfl | rfl <;> decide) [0, 2] c124_used rfl rfl

example : ∃ y, interp1d c124Linear c124Example 1 ⟨[1], 2, fun i => i, 0⟩ false = .ok y ∧ y.values (fun _ => 1) = 11 ∧ y.coords.map (·.name) = [1, 2] ∧ y.masks.map (·.name) = [1] :=
  ⟨_, rfl, by decide +kernel, by decide +kernel, by decide +kernel⟩

example : ∃ y, interp1d c124Linear c124Example 1 ⟨[1], 2, fun i => i, 0⟩ true = .ok y ∧ y.size 1 = 1 ∧ y.values (fun _ => 0) = 1 / 2 := ⟨_, rfl, by decide +kernel, by decide +kernel⟩

example : interp1d c124Linear c124Example 2 ⟨[1], 2, fun i => i, 0⟩ true = .error .dimension := rfl

end Scipp.Props
