import Verif.Lemmas.LabelSlice
/-!
C45: slicing by label. `[a, b)` selects exactly the points with `a <= x < b` (ascending; `a >= x > b` descending) or, for edges, exactly the
bins overlapping the interval; a point slice selects the unique matching point or the bin containing the value, and throws otherwise.
-/
namespace Scipp.Props
open Scipp Scipp.Sizes Scipp.Label
variable {α : Type} [LinearOrder α]

theorem bound_strict {coord : Coord α} {asc : Bool} {xs : List α} (hs : xs.Pairwise (Le asc)) {v : Option (Value α)} {b : Option α}
    (hb : Bound coord v b) (d : Int) (x : α) (hx : b = some x) :
    0 ≤ bound (xs.map some) xs.length v asc false d ∧ bound (xs.map some) xs.length v asc false d ≤ xs.length ∧
      ∀ (j : Nat) (hj : j < xs.length), ((j : Int) < bound (xs.map some) xs.length v asc false d ↔ Lt asc xs[j] x) := by
  subst hx
  cases v with
  | none => exact absurd hb (by simp [Bound])
  | some w =>
    obtain ⟨_, hw, _⟩ := hb
    have hg := getCount_nonneg (xs.map some) (some x) (!asc)
    have he : bound (xs.map some) xs.length (some w) asc false d = xs.length - getCount (xs.map some) (some x) (!asc) := by
      unfold bound getIndex
      simp only [hw]
      rw [if_neg (by decide), clamp_eq (by omega), show (false == asc) = !asc by cases asc <;> rfl]
      rw [List.length_map] at hg
      omega
    rw [he]
    rw [List.length_map] at hg
    exact ⟨by omega, by omega, fun j hj => count_lt asc hs x j hj⟩

theorem bound_edges {coord : Coord α} {asc : Bool} {xs : List α} (hs : xs.Pairwise (Le asc)) {v : Option (Value α)} {b : Option α}
    (hb : Bound coord v b) (d : Int) (x : α) (hx : b = some x) :
    0 ≤ bound (xs.map some) xs.length v asc true d ∧ bound (xs.map some) xs.length v asc true d ≤ max 0 ((xs.length : Int) - 1) ∧
      ∀ (j : Nat) (hj : j + 1 < xs.length), ((j : Int) < bound (xs.map some) xs.length v asc true d ↔ Le asc xs[j + 1] x) := by
  subst hx
  cases v with
  | none => exact absurd hb (by simp [Bound])
  | some w =>
    obtain ⟨_, hw, _⟩ := hb
    have hg := getCount_nonneg (xs.map some) (some x) asc
    rw [List.length_map] at hg
    have he : bound (xs.map some) xs.length (some w) asc true d = max 0 (getCount (xs.map some) (some x) asc - 1) := by
      unfold bound getIndex
      simp only [hw]
      rw [if_pos trivial, clamp_eq (by omega), show (true == asc) = asc by cases asc <;> rfl]
    rw [he]
    refine ⟨by omega, by omega, fun j hj => ?_⟩
    rw [← (count_le asc hs x (j + 1) hj).1]
    omega

theorem bound_none {coord : Coord α} {asc edges : Bool} {vals : List (Option α)} {n : Int} {v : Option (Value α)} (hb : Bound coord v none) (d : Int) :
    bound vals n v asc edges d = d := by
  cases v with
  | none => rfl
  | some w => exact absurd hb (by simp [Bound])

theorem bound_check {coord : Coord α} {v : Option (Value α)} {b : Option α} (hb : Bound coord v b) : checkOptional coord v = .ok () := by
  cases v with
  | none => rfl
  | some w =>
    cases b with
    | none => exact absurd hb (by simp [Bound])
    | some x =>
      obtain ⟨h1, _, h3, h4⟩ := hb
      simp only [checkOptional, checkValue]
      rw [if_neg (by simp [h1]), if_neg (by simp [h3]), if_neg (by simp [h4])]

theorem at_mem {s : Sizes} {d : Dim} {n : Int} (hw : WF s) (h : (d, n) ∈ s) : at? s d = .ok n := at?_of_mem hw.1 h

theorem at_single (d : Dim) (n : Int) : at? [(d, n)] d = .ok n := by simp [at?]

theorem rangeSlice_eq {sizes : Sizes} {coord : Coord α} {dim : Dim} {xs : List α} {asc : Bool} {n : Int} (hw : WF sizes) (ho : coord.orderable = true)
    (hd : coord.dims = [(dim, (xs.length : Int))]) (hv : coord.vals = xs.map some) (hn : (dim, n) ∈ sizes) (hs : Sorted asc xs)
    {first last : Option (Value α)} {b e : Option α} (hb : Bound coord first b) (he : Bound coord last e) :
    rangeParams sizes coord first last = .ok (dim, bound (xs.map some) xs.length first asc (decide (n + 1 = xs.length)) 0,
      min n (bound (xs.map some) xs.length last asc false n)) := by
  unfold rangeParams
  rw [bound_check hb]
  simp only [bound_check he]
  rw [if_neg (by rw [ho]; decide)]
  have hin : Dims.inner coord.dims = dim := by rw [hd]; rfl
  rw [hin, getCoord_ok hd hv hs]
  simp only [at_mem hw hn]
  rw [hd, at_single]
  simp only [hv]

theorem slice_of_params {sizes : Sizes} {coord : Coord α} {first last : Option (Value α)} {dim : Dim} {i j n : Int}
    (hw : WF sizes) (hn : (dim, n) ∈ sizes) (h : rangeParams sizes coord first last = .ok (dim, i, j)) (h0 : 0 ≤ i) (hij : i ≤ j) (hjn : j ≤ n) :
    rangeSlice sizes coord first last = .ok ⟨dim, i, j, 1⟩ := by
  unfold rangeSlice
  rw [h]
  simp only [Slice.range]
  rw [if_neg (by omega), if_neg (by omega), if_neg (by decide), if_neg (by decide)]
  simp only
  have hne : (⟨dim, i, j, 1⟩ : Slice) ≠ Slice.none := by
    intro hc
    have := congrArg Slice.start hc
    simp only [Slice.none] at this
    omega
  have hv : validSlice sizes ⟨dim, i, j, 1⟩ = .ok () := (validSlice_iff hne hw.1).2 ⟨n, hn, by
    simp only
    rw [if_neg (by omega)]; exact hjn⟩
  have hsl : ∃ S, Sizes.slice sizes ⟨dim, i, j, 1⟩ = .ok S := by
    unfold Sizes.slice
    rw [hv]
    have hr : Slice.isRange ⟨dim, i, j, 1⟩ = true := by simp [Slice.isRange]; omega
    have hex : ∃ S, resize sizes dim (sliceExtent i j 1) = .ok S := by
      unfold resize
      rw [if_neg (by unfold sliceExtent; omega)]
      obtain ⟨pre, m, post, rfl, hpre⟩ := split_label (List.mem_map_of_mem (f := Prod.fst) hn)
      exact ⟨_, assign_mid hpre⟩
    obtain ⟨S, hS⟩ := hex
    refine ⟨S, ?_⟩
    show (if _ then _ else _) = _
    rw [if_neg hne, if_pos hr]
    exact hS
  obtain ⟨S, hS⟩ := hsl
  rw [hS]

/-- C45 for ranges of points: the selected points are exactly those between the labels. The left label is included, the right one is not.
Either may be missing. -/
theorem C45_range_points {sizes : Sizes} {coord : Coord α} {dim : Dim} {xs : List α} {asc : Bool} (hw : WF sizes) (ho : coord.orderable = true)
    (hp : IsPoints sizes coord dim xs) (hs : Sorted asc xs) {first last : Option (Value α)} {b e : Option α} (hb : Bound coord first b)
    (he : Bound coord last e) (hle : ∀ x y, b = some x → e = some y → Le asc x y) :
    ∃ s, rangeSlice sizes coord first last = .ok s ∧ s.dim = dim ∧ s.stride = 1 ∧ 0 ≤ s.start ∧ s.stop ≤ xs.length ∧
      ∀ (j : Nat) (hj : j < xs.length), Selected s j ↔ (∀ x, b = some x → Le asc x xs[j]) ∧ (∀ y, e = some y → Lt asc xs[j] y) := by
  have hpar := rangeSlice_eq hw ho hp.dims hp.vals hp.size hs hb he
  rw [show decide ((xs.length : Int) + 1 = xs.length) = false by simp] at hpar
  obtain ⟨B, hB⟩ : ∃ B, B = bound (xs.map some) xs.length first asc false 0 := ⟨_, rfl⟩
  obtain ⟨E, hE⟩ : ∃ E, E = bound (xs.map some) xs.length last asc false xs.length := ⟨_, rfl⟩
  rw [← hB, ← hE] at hpar
  have hBs : 0 ≤ B ∧ B ≤ xs.length ∧ ∀ (j : Nat) (hj : j < xs.length), ((j : Int) < B ↔ ∃ x, b = some x ∧ Lt asc xs[j] x) := by
    cases b with
    | none =>
      rw [bound_none hb] at hB
      exact ⟨by omega, by omega, fun j hj => ⟨fun h => by omega, fun ⟨x, hx, _⟩ => by cases hx⟩⟩
    | some x =>
      obtain ⟨h1, h2, h3⟩ := bound_strict hs.1 hb 0 x rfl
      rw [hB]
      exact ⟨h1, h2, fun j hj => ⟨fun h => ⟨x, rfl, (h3 j hj).1 h⟩, fun ⟨y, hy, hlt⟩ => (h3 j hj).2 (by cases hy; exact hlt)⟩⟩
  have hEs : 0 ≤ E ∧ E ≤ xs.length ∧ ∀ (j : Nat) (hj : j < xs.length), ((j : Int) < E ↔ ∀ y, e = some y → Lt asc xs[j] y) := by
    cases e with
    | none =>
      rw [bound_none he] at hE
      exact ⟨by omega, by omega, fun j hj => ⟨fun _ y hy => (nomatch hy), fun _ => by omega⟩⟩
    | some y =>
      obtain ⟨h1, h2, h3⟩ := bound_strict hs.1 he xs.length y rfl
      rw [hE]
      exact ⟨h1, h2, fun j hj => ⟨fun h y' hy => by cases hy; exact (h3 j hj).1 h, fun h => (h3 j hj).2 (h y rfl)⟩⟩
  have hBE : B ≤ E := by
    by_contra hc
    have hj : E.toNat < xs.length := by omega
    obtain ⟨x, hx, hlt⟩ := (hBs.2.2 E.toNat hj).1 (by omega)
    have hn : ¬ ((E.toNat : Int) < E) := by omega
    rw [hEs.2.2 E.toNat hj] at hn
    refine hn (fun y hy => ?_)
    have hxy := hle x y hx hy
    unfold Lt Le at *
    cases asc with
    | true => exact lt_of_lt_of_le hlt hxy
    | false => exact lt_of_le_of_lt hxy hlt
  rw [show min (xs.length : Int) E = E by omega] at hpar
  refine ⟨⟨dim, B, E, 1⟩, slice_of_params hw hp.size hpar hBs.1 hBE hEs.2.1, rfl, rfl, hBs.1, hEs.2.1, fun j hj => ?_⟩
  unfold Selected
  simp only
  rw [hEs.2.2 j hj]
  refine and_congr ?_ Iff.rfl
  rw [← not_lt, hBs.2.2 j hj]
  constructor
  · intro h x hx
    by_contra hc
    exact h ⟨x, hx, not_le_iff.1 hc⟩
  · rintro h ⟨x, hx, hlt⟩
    exact not_le_iff.2 hlt (h x hx)

/-- C45 for ranges of bins: a bin is selected if it begins before the end of the interval and ends after its beginning. -/
theorem C45_range_edges {sizes : Sizes} {coord : Coord α} {dim : Dim} {es : List α} {asc : Bool} (hw : WF sizes) (ho : coord.orderable = true)
    (hp : IsEdges sizes coord dim es) (hs : Sorted asc es) {first last : Option (Value α)} {b e : Option α} (hb : Bound coord first b)
    (he : Bound coord last e) (hlt : ∀ x y, b = some x → e = some y → Lt asc x y) :
    ∃ s, rangeSlice sizes coord first last = .ok s ∧ s.dim = dim ∧ s.stride = 1 ∧ 0 ≤ s.start ∧ s.stop ≤ (es.length : Int) - 1 ∧
      ∀ (j : Nat) (hj : j + 1 < es.length), Selected s j ↔ (∀ x, b = some x → Lt asc x es[j + 1]) ∧ (∀ y, e = some y → Lt asc es[j] y) := by
  have hpar := rangeSlice_eq hw ho hp.dims hp.vals hp.size hs hb he
  rw [show decide ((es.length : Int) - 1 + 1 = es.length) = true by simp] at hpar
  have hn0 : 0 ≤ (es.length : Int) - 1 := hw.2 _ hp.size
  obtain ⟨B, hB⟩ : ∃ B, B = bound (es.map some) es.length first asc true 0 := ⟨_, rfl⟩
  obtain ⟨E, hE⟩ : ∃ E, E = bound (es.map some) es.length last asc false ((es.length : Int) - 1) := ⟨_, rfl⟩
  rw [← hB, ← hE] at hpar
  have hBs : 0 ≤ B ∧ B ≤ (es.length : Int) - 1 ∧ ∀ (j : Nat) (hj : j + 1 < es.length), ((j : Int) < B ↔ ∃ x, b = some x ∧ Le asc es[j + 1] x) := by
    cases b with
    | none =>
      rw [bound_none hb] at hB
      exact ⟨by omega, by omega, fun j hj => ⟨fun h => by omega, fun ⟨x, hx, _⟩ => by cases hx⟩⟩
    | some x =>
      obtain ⟨h1, h2, h3⟩ := bound_edges hs.1 hb 0 x rfl
      rw [hB]
      exact ⟨h1, by omega, fun j hj => ⟨fun h => ⟨x, rfl, (h3 j hj).1 h⟩, fun ⟨y, hy, hl⟩ => (h3 j hj).2 (by cases hy; exact hl)⟩⟩
  have hEs : 0 ≤ E ∧ ∀ (j : Nat) (hj : j + 1 < es.length), ((j : Int) < E ↔ ∀ y, e = some y → Lt asc es[j] y) := by
    cases e with
    | none =>
      rw [bound_none he] at hE
      exact ⟨by omega, fun j hj => ⟨fun _ y hy => (nomatch hy), fun _ => by omega⟩⟩
    | some y =>
      obtain ⟨h1, h2, h3⟩ := bound_strict hs.1 he ((es.length : Int) - 1) y rfl
      rw [hE]
      exact ⟨h1, fun j hj => ⟨fun h y' hy => by cases hy; exact (h3 j (by omega)).1 h, fun h => (h3 j (by omega)).2 (h y rfl)⟩⟩
  have hBE : B ≤ min ((es.length : Int) - 1) E := by
    by_contra hc
    have hj : E.toNat + 1 < es.length := by omega
    obtain ⟨x, hx, hle⟩ := (hBs.2.2 E.toNat hj).1 (by omega)
    have hn : ¬ ((E.toNat : Int) < E) := by omega
    rw [hEs.2 E.toNat hj] at hn
    refine hn (fun y hy => ?_)
    have hxy := hlt x y hx hy
    have hmono := List.pairwise_iff_getElem.1 hs.1 E.toNat (E.toNat + 1) (by omega) hj (by omega)
    unfold Lt Le at *
    cases asc with
    | true => exact lt_of_le_of_lt (le_trans hmono hle) hxy
    | false => exact lt_of_lt_of_le hxy (le_trans hle hmono)
  refine ⟨⟨dim, B, min ((es.length : Int) - 1) E, 1⟩, slice_of_params hw hp.size hpar hBs.1 hBE (by omega), rfl, rfl, hBs.1,
    by show min _ _ ≤ _; omega, fun j hj => ?_⟩
  unfold Selected
  simp only
  rw [show ((j : Int) < min ((es.length : Int) - 1) E) ↔ (j : Int) < E by omega, hEs.2 j hj]
  refine and_congr ?_ Iff.rfl
  rw [← not_lt, hBs.2.2 j hj]
  constructor
  · intro h x hx
    by_contra hc
    refine h ⟨x, hx, ?_⟩
    by_contra hc'
    exact hc (not_le_iff.1 hc')
  · rintro h ⟨x, hx, hle⟩
    exact not_le_iff.2 (h x hx) hle

/-- C45 for ranges of bins: the selected bins are exactly those overlapping the interval, i.e. those that have a value in common with it.
Bins of zero width, which contain no values, are left out, and the interval must not be empty; see `C45_wrong_for_empty_interval`. -/
theorem C45_overlap_partial {sizes : Sizes} {coord : Coord α} {dim : Dim} {es : List α} {asc : Bool} (hw : WF sizes) (ho : coord.orderable = true)
    (hp : IsEdges sizes coord dim es) (hs : Sorted asc es) {first last : Option (Value α)} {b e : Option α} (hb : Bound coord first b)
    (he : Bound coord last e) (hlt : ∀ x y, b = some x → e = some y → Lt asc x y) :
    ∃ s, rangeSlice sizes coord first last = .ok s ∧ s.dim = dim ∧ s.stride = 1 ∧
      ∀ (j : Nat) (hj : j + 1 < es.length), Lt asc es[j] es[j + 1] →
        (Selected s j ↔ ∃ z, Le asc es[j] z ∧ Lt asc z es[j + 1] ∧ (∀ x, b = some x → Le asc x z) ∧ (∀ y, e = some y → Lt asc z y)) := by
  obtain ⟨s, h1, h2, h3, _, _, h6⟩ := C45_range_edges hw ho hp hs hb he hlt
  refine ⟨s, h1, h2, h3, fun j hj hbin => ?_⟩
  rw [h6 j hj]
  constructor
  · rintro ⟨g1, g2⟩
    cases b with
    | none =>
      refine ⟨es[j], ?_, hbin, fun x hx => (nomatch hx), g2⟩
      unfold Le; cases asc <;> simp
    | some x =>
      by_cases hc : Le asc x es[j]
      · refine ⟨es[j], ?_, hbin, fun x' hx => by cases hx; exact hc, g2⟩
        unfold Le; cases asc <;> simp
      · have hc' := not_le_iff.1 hc
        refine ⟨x, ?_, g1 x rfl, fun x' hx => ?_, fun y hy => hlt x y rfl hy⟩
        · unfold Le Lt at *; cases asc <;> exact le_of_lt hc'
        · cases hx; unfold Le; cases asc <;> simp
  · rintro ⟨z, z1, z2, z3, z4⟩
    refine ⟨fun x hx => ?_, fun y hy => ?_⟩
    · have := z3 x hx
      unfold Le Lt at *
      cases asc with
      | true => exact lt_of_le_of_lt this z2
      | false => exact lt_of_lt_of_le z2 this
    · have := z4 y hy
      unfold Le Lt at *
      cases asc with
      | true => exact lt_of_le_of_lt z1 this
      | false => exact lt_of_lt_of_le this z1

theorem count_one {β : Type} {p : β → Bool} : ∀ {l : List β}, l.countP p = 1 ↔
    ∃ j, ∃ hj : j < l.length, p l[j] = true ∧ ∀ (i : Nat) (hi : i < l.length), p l[i] = true → i = j
  | [] => by simp
  | x :: l => by
    rw [List.countP_cons]
    by_cases hx : p x = true
    · rw [if_pos hx]
      have hz : l.countP p + 1 = 1 ↔ ∀ y ∈ l, ¬ p y = true := by
        rw [← List.countP_eq_zero]; omega
      rw [hz]
      constructor
      · intro h
        refine ⟨0, by simp, hx, fun i hi hpi => ?_⟩
        cases i with
        | zero => rfl
        | succ i => exact absurd hpi (h _ (by simp))
      · rintro ⟨j, hj, h1, h2⟩ y hy hpy
        obtain ⟨i, hi, rfl⟩ := List.getElem_of_mem hy
        have e1 := h2 (i + 1) (by simpa using hi) (by simpa using hpy)
        have e2 := h2 0 (by simp) hx
        omega
    · rw [if_neg hx, Nat.add_zero, count_one]
      constructor
      · rintro ⟨j, hj, h1, h2⟩
        refine ⟨j + 1, by simpa using hj, by simpa using h1, fun i hi hpi => ?_⟩
        cases i with
        | zero => exact absurd hpi hx
        | succ i => rw [h2 i (by simpa using hi) (by simpa using hpi)]
      · rintro ⟨j, hj, h1, h2⟩
        cases j with
        | zero => exact absurd h1 hx
        | succ j =>
          refine ⟨j, by simpa using hj, by simpa using h1, fun i hi hpi => ?_⟩
          have := h2 (i + 1) (by simpa using hi) (by simpa using hpi)
          omega

theorem slice_of_point {sizes : Sizes} {dim : Dim} {i n : Int} (hw : WF sizes) (hn : (dim, n) ∈ sizes) (h0 : 0 ≤ i) :
    (∃ S, Sizes.slice sizes ⟨dim, i, -1, 1⟩ = .ok S) ↔ i < n := by
  have hne : (⟨dim, i, -1, 1⟩ : Slice) ≠ Slice.none := by
    intro hc
    have := congrArg Slice.start hc
    simp only [Slice.none] at this
    omega
  constructor
  · rintro ⟨S, hS⟩
    unfold Sizes.slice at hS
    cases hv : validSlice sizes ⟨dim, i, -1, 1⟩ with
    | error e => rw [hv] at hS; cases hS
    | ok _ =>
      obtain ⟨m, hm, hle⟩ := (validSlice_iff hne hw.1).1 hv
      have h1 := at_mem hw hm
      have h2 := at_mem hw hn
      rw [h1] at h2
      have := Except.ok.inj h2
      simp at hle
      omega
  · intro hlt
    have hv : validSlice sizes ⟨dim, i, -1, 1⟩ = .ok () := (validSlice_iff hne hw.1).2 ⟨n, hn, by simp; omega⟩
    unfold Sizes.slice
    rw [hv]
    obtain ⟨pre, m, post, rfl, hpre⟩ := split_label (List.mem_map_of_mem (f := Prod.fst) hn)
    refine ⟨pre ++ post, ?_⟩
    show (if _ then _ else _) = _
    rw [if_neg hne, if_neg (by simp [Slice.isRange])]
    exact erase_mid hpre

theorem pointSlice_iff {sizes : Sizes} {coord : Coord α} {value : Value α} {dim : Dim} {i n : Int} (hw : WF sizes) (hn : (dim, n) ∈ sizes)
    (h : pointParams sizes coord value = .ok (dim, i)) (s : Slice) :
    pointSlice sizes coord value = .ok s ↔ 0 ≤ i ∧ i < n ∧ s = ⟨dim, i, -1, 1⟩ := by
  unfold pointSlice
  rw [h]
  simp only [Slice.point]
  by_cases h0 : i < 0
  · rw [if_pos h0]
    simp only
    constructor
    · intro hc; cases hc
    · rintro ⟨hc, _⟩; omega
  · rw [if_neg h0]
    simp only
    have hiff := slice_of_point (dim := dim) hw hn (show 0 ≤ i by omega)
    cases hs : Sizes.slice sizes ⟨dim, i, -1, 1⟩ with
    | error e =>
      constructor
      · intro hc; cases hc
      · rintro ⟨_, hc, _⟩
        obtain ⟨S, hS⟩ := hiff.2 hc
        rw [hs] at hS; cases hS
    | ok S =>
      constructor
      · intro hc
        exact ⟨by omega, hiff.1 ⟨S, hs⟩, (Except.ok.inj hc).symm⟩
      · rintro ⟨_, _, rfl⟩; rfl

/-- C45 for single points: the slice at a value succeeds exactly if there is a unique point with that value, and selects it. NaN never
matches. The coord need not be sorted. -/
theorem C45_point {sizes : Sizes} {coord : Coord α} {dim : Dim} {value : Value α} (hw : WF sizes)
    (hd : coord.dims = [(dim, (coord.vals.length : Int))]) (hn : (dim, (coord.vals.length : Int)) ∈ sizes) (hv : value.dims = [])
    (hu : value.unit = coord.unit) (s : Slice) :
    pointSlice sizes coord value = .ok s ↔
      ∃ j x, value.val = some x ∧ coord.vals[j]? = some (some x) ∧ (∀ i : Nat, coord.vals[i]? = some (some x) → i = j) ∧
        s = ⟨dim, (j : Nat), -1, 1⟩ := by
  have hfeq : ∀ a b : Option α, feq a b = true ↔ ∃ x, a = some x ∧ b = some x := by
    intro a b
    cases a with
    | none => simp [feq]
    | some a =>
      cases b with
      | none => simp [feq]
      | some b =>
        simp only [feq, decide_eq_true_iff, Option.some.injEq]
        exact ⟨fun h => ⟨a, rfl, h.symm⟩, fun ⟨x, h1, h2⟩ => h1.trans h2.symm⟩
  have hget : ∀ (i : Nat), (∃ hi : i < coord.vals.length, feq coord.vals[i] value.val = true) ↔ ∃ x, value.val = some x ∧ coord.vals[i]? = some (some x) := by
    intro i
    constructor
    · rintro ⟨hi, h⟩
      obtain ⟨x, h1, h2⟩ := (hfeq _ _).1 h
      exact ⟨x, h2, by rw [List.getElem?_eq_getElem hi, h1]⟩
    · rintro ⟨x, h1, h2⟩
      obtain ⟨hi, h3⟩ := List.getElem?_eq_some_iff.1 h2
      exact ⟨hi, (hfeq _ _).2 ⟨x, h3, h1⟩⟩
  have hpar : pointParams sizes coord value = if coord.vals.countP (fun x => feq x value.val) ≠ 1 then .error .slice
      else .ok (dim, (coord.vals.findIdx (fun x => feq x value.val) : Nat)) := by
    unfold pointParams checkValue
    rw [if_neg (by simp [hv]), if_neg (by simp [hu]), if_neg (by simp)]
    have hin : Dims.inner coord.dims = dim := by rw [hd]; rfl
    simp only [hin, at_mem hw hn]
    have hat : at? coord.dims dim = .ok (coord.vals.length : Int) := by rw [hd]; exact at_single _ _
    simp only [hat]
    rw [if_neg (by omega), if_neg (by rw [hd]; simp)]
  by_cases hc : coord.vals.countP (fun x => feq x value.val) = 1
  · rw [if_neg (by simp [hc])] at hpar
    rw [pointSlice_iff hw hn hpar]
    obtain ⟨j, hj, h1, h2⟩ := count_one.1 hc
    have hidx : coord.vals.findIdx (fun x => feq x value.val) = j := by
      have hlt : coord.vals.findIdx (fun x => feq x value.val) < coord.vals.length :=
        List.findIdx_lt_length_of_exists ⟨_, List.getElem_mem hj, h1⟩
      exact h2 _ hlt (List.findIdx_getElem (w := hlt))
    rw [hidx]
    obtain ⟨x, hx1, hx2⟩ := (hget j).1 ⟨hj, h1⟩
    constructor
    · rintro ⟨_, _, rfl⟩
      refine ⟨j, x, hx1, hx2, fun i hi => ?_, rfl⟩
      obtain ⟨hi', h3⟩ := (hget i).2 ⟨x, hx1, hi⟩
      exact h2 i hi' h3
    · rintro ⟨k, y, hy1, hy2, hy3, rfl⟩
      rw [hx1, Option.some.injEq] at hy1
      subst hy1
      rw [← hy3 j hx2]
      exact ⟨by omega, by omega, rfl⟩
  · rw [if_pos (by simpa using hc)] at hpar
    unfold pointSlice
    rw [hpar]
    simp only
    constructor
    · intro h; cases h
    · rintro ⟨j, x, h1, h2, h3, _⟩
      exfalso
      obtain ⟨hj, h4⟩ := (hget j).2 ⟨x, h1, h2⟩
      refine hc (count_one.2 ⟨j, hj, h4, fun i hi hpi => ?_⟩)
      obtain ⟨y, hy1, hy2⟩ := (hget i).1 ⟨hi, hpi⟩
      rw [h1, Option.some.injEq] at hy1
      subst hy1
      exact h3 i hy2

/-- C45 for a bin: the slice at a value succeeds exactly if a bin contains the value (including its first but not its second edge), and selects
it. -/
theorem C45_bin {sizes : Sizes} {coord : Coord α} {dim : Dim} {es : List α} {asc : Bool} {value : Value α} (hw : WF sizes)
    (hp : IsEdges sizes coord dim es) (hs : Sorted asc es) (hv : value.dims = []) (hu : value.unit = coord.unit) (s : Slice) :
    pointSlice sizes coord value = .ok s ↔
      ∃ j x, ∃ hj : j + 1 < es.length, value.val = some x ∧ Le asc es[j] x ∧ Lt asc x es[j + 1] ∧ s = ⟨dim, (j : Nat), -1, 1⟩ := by
  have hpar : pointParams sizes coord value = .ok (dim, getCount (es.map some) value.val asc - 1) := by
    unfold pointParams checkValue
    rw [if_neg (by simp [hv]), if_neg (by simp [hu]), if_neg (by simp)]
    have hin : Dims.inner coord.dims = dim := by rw [hp.dims]; rfl
    simp only [hin, at_mem hw hp.size]
    have hat : at? coord.dims dim = .ok (es.length : Int) := by rw [hp.dims]; exact at_single _ _
    simp only [hat]
    rw [if_pos (by omega), getCoord_ok hp.dims hp.vals hs]
    simp only [hp.vals]
  rw [pointSlice_iff hw hp.size hpar]
  cases hx : value.val with
  | none =>
    constructor
    · rintro ⟨h0, _⟩
      exfalso
      have : getCount (es.map some) none asc = 0 := by
        unfold getCount
        have hz : ∀ x : Option α, fle x none = false ∧ fle none x = false := by
          intro x; cases x <;> simp [fle]
        simp [hz]
      omega
    · rintro ⟨j, x, _, hc, _⟩; cases hc
  | some x =>
    constructor
    · rintro ⟨h0, h1, rfl⟩
      obtain ⟨j, hj⟩ : ∃ j : Nat, (j : Int) = getCount (es.map some) (some x) asc - 1 := ⟨_, Int.toNat_of_nonneg h0⟩
      have hlt : j + 1 < es.length := by omega
      refine ⟨j, x, hlt, rfl, ((count_le asc hs.1 x j (by omega)).1).1 (by omega), ?_, by rw [hj]⟩
      rw [← not_le_iff, ← (count_le asc hs.1 x (j + 1) hlt).1]
      omega
    · rintro ⟨j, y, hj, hy, h1, h2, rfl⟩
      rw [Option.some.injEq] at hy
      subst hy
      have a1 := (count_le asc hs.1 x j (by omega)).1.2 h1
      have a2 : ¬ (((j + 1 : Nat) : Int) < getCount (es.map some) (some x) asc) := by
        rw [(count_le asc hs.1 x (j + 1) hj).1, not_le_iff]
        exact h2
      have a3 : getCount (es.map some) (some x) asc = j + 1 := by omega
      rw [a3]
      exact ⟨by omega, by omega, by rw [show (j : Int) + 1 - 1 = j by omega]⟩

/-- C45: labels are accepted only if they are scalars in the unit of the coord, and for ranges only if coord and labels have an order. -/
theorem C45_checks_labels {sizes : Sizes} {coord : Coord α} :
    (∀ {first last : Option (Value α)} {s : Slice}, rangeSlice sizes coord first last = .ok s → coord.orderable = true ∧
      ∀ v, first = some v ∨ last = some v → v.dims = [] ∧ v.unit = coord.unit ∧ v.orderable = true) ∧
    ∀ {value : Value α} {s : Slice}, pointSlice sizes coord value = .ok s → value.dims = [] ∧ value.unit = coord.unit := by
  have hval : ∀ {v : Value α} {r : Bool} {u : Unit}, checkValue coord v r = .ok u →
      v.dims = [] ∧ v.unit = coord.unit ∧ (r = true → v.orderable = true) := by
    intro v r u h
    unfold checkValue at h
    split at h
    · cases h
    · rename_i h1
      split at h
      · cases h
      · rename_i h2
        split at h
        · cases h
        · rename_i h3
          refine ⟨by simpa using h1, (by simpa using h2 : coord.unit = v.unit).symm, fun hr => ?_⟩
          subst hr
          simpa using h3
  constructor
  · intro first last s h
    unfold rangeSlice at h
    cases h2 : rangeParams sizes coord first last with
    | error e => rw [h2] at h; cases h
    | ok r =>
      unfold rangeParams at h2
      cases h3 : checkOptional coord first with
      | error e => rw [h3] at h2; cases h2
      | ok _ =>
        simp only [h3] at h2
        cases h4 : checkOptional coord last with
        | error e => simp only [h4] at h2; cases h2
        | ok _ =>
          simp only [h4] at h2
          by_cases h5 : coord.orderable = false
          · rw [if_pos h5] at h2; cases h2
          · refine ⟨by simpa using h5, ?_⟩
            rintro v (rfl | rfl)
            · obtain ⟨a, b, c⟩ := hval h3
              exact ⟨a, b, c rfl⟩
            · obtain ⟨a, b, c⟩ := hval h4
              exact ⟨a, b, c rfl⟩
  · intro value s h
    unfold pointSlice at h
    cases h2 : pointParams sizes coord value with
    | error e => rw [h2] at h; cases h
    | ok r =>
      unfold pointParams at h2
      cases h3 : checkValue coord value false with
      | error e => rw [h3] at h2; cases h2
      | ok _ =>
        obtain ⟨a, b, -⟩ := hval h3
        exact ⟨a, b⟩

/-- C45: a range is selected only from a sorted coord without NaN (or a coord with a single value). -/
theorem C45_requires_sorted {sizes : Sizes} {coord : Coord α} {dim : Dim} {n : Int} (hd : coord.dims = [(dim, n)]) (hn : n = coord.vals.length) (h1 : n ≠ 1)
    {first last : Option (Value α)} {s : Slice} (h : rangeSlice sizes coord first last = .ok s) :
    ∃ asc xs, coord.vals = xs.map some ∧ Sorted asc xs := by
  unfold rangeSlice at h
  cases h2 : rangeParams sizes coord first last with
  | error e => rw [h2] at h; cases h
  | ok r =>
    unfold rangeParams at h2
    cases h3 : checkOptional coord first with
    | error e => rw [h3] at h2; cases h2
    | ok _ =>
      simp only [h3] at h2
      cases h4 : checkOptional coord last with
      | error e => simp only [h4] at h2; cases h2
      | ok _ =>
        simp only [h4] at h2
        by_cases h5 : coord.orderable = false
        · rw [if_pos h5] at h2; cases h2
        · rw [if_neg h5] at h2
          have hin : Dims.inner coord.dims = dim := by rw [hd]; rfl
          rw [hin] at h2
          cases h6 : getCoord coord dim with
          | error e => simp only [h6] at h2; cases h2
          | ok asc =>
            obtain ⟨xs, hxs, hs⟩ := getCoord_sorted hd hn h1 h6
            exact ⟨asc, xs, hxs, hs⟩

/-! ### Examples and disagreements -/

/-- A 1-D coord for the examples. -/
def labelCoord (l : List (Option Int)) : Coord Int := ⟨[(5, l.length)], l, 0, true⟩

/-- A label for the examples. -/
def label (x : Int) : Option (Value Int) := some ⟨[], some x, 0, true⟩

/-- The part of a slice that is shown. -/
def shown : Except Err Slice → Option (Int × Int)
  | .ok s => some (s.start, s.stop)
  | .error _ => none

example : shown (rangeSlice [(5, 4)] (labelCoord [some 1, some 3, some 5, some 7]) (label 2) (label 7)) = some (1, 3) := by decide
example : shown (rangeSlice [(5, 3)] (labelCoord [some 7, some 5, some 3, some 1]) (label 6) (label 5)) = some (0, 1) := by decide
example : shown (pointSlice [(5, 3)] (labelCoord [some 1, some 3, some 5, some 7]) ⟨[], some 3, 0, true⟩) = some (1, -1) := by decide
example : shown (pointSlice [(5, 3)] (labelCoord [some 1, some 3, some 5, some 7]) ⟨[], some 7, 0, true⟩) = none := by decide

example : IsPoints [(5, 3)] (labelCoord [some 1, some 3, some 5]) 5 [1, 3, 5] ∧ Sorted true [(1 : Int), 3, 5] ∧
    Bound (labelCoord [some 1, some 3, some 5]) (label 2) (some 2) ∧ Bound (labelCoord [some 1, some 3, some 5]) none none :=
  ⟨⟨rfl, rfl, by decide⟩, ⟨by simp [Le], .inr ⟨1, by decide, 3, by decide, by decide⟩⟩, ⟨rfl, rfl, rfl, rfl⟩, trivial⟩

example : IsEdges [(5, 2)] (labelCoord [some 5, some 3, some 1]) 5 [5, 3, 1] ∧ Sorted false [(5 : Int), 3, 1] :=
  ⟨⟨rfl, rfl, by decide⟩, ⟨by simp [Le], .inr ⟨1, by decide, 3, by decide, by decide⟩⟩⟩

/-- C45 fails for an empty interval inside a bin: `[1, 1)` selects the bin `[0, 2)`. -/
theorem C45_wrong_for_empty_interval : shown (rangeSlice [(5, 2)] (labelCoord [some 0, some 2, some 4]) (label 1) (label 1)) = some (0, 1) := by
  decide

/-- C45 fails for NaN: no point is less than NaN, but `[2, NaN)` selects all points from 2 on. With bin edges, `[NaN, 3)` selects from the
first bin on. -/
theorem C45_wrong_for_nan :
    shown (rangeSlice [(5, 3)] (labelCoord [some 1, some 2, some 3]) (label 2) (some ⟨[], none, 0, true⟩)) = some (1, 3) ∧
      shown (rangeSlice [(5, 2)] (labelCoord [some 1, some 2, some 3]) (some ⟨[], none, 0, true⟩) (label 3)) = some (0, 2) := by
  decide

/-- C45: a range slice of empty data or of a coord with several equal values throws, although the coord is sorted. -/
theorem C45_throws_for_constant :
    rangeSlice [(5, 0)] (labelCoord []) (label 0) (label 3) = .error .runtime ∧
      rangeSlice [(5, 2)] (labelCoord [some 1, some 1]) (label 0) (label 3) = .error .runtime := ⟨rfl, rfl⟩

/-- C45: if the labels are in the wrong order, the slice throws, unless no points are between the labels. -/
theorem C45_throws_for_reversed_interval :
    rangeSlice [(5, 3)] (labelCoord [some 1, some 2, some 3]) (label 3) (label 1) = .error .slice ∧
      shown (rangeSlice [(5, 2)] (labelCoord [some 1, some 4]) (label 3) (label 2)) = some (1, 1) := ⟨rfl, by decide⟩

private theorem sorted135 : Sorted true [(1 : Int), 3, 5] := ⟨by simp [Le], .inr ⟨1, by decide, 3, by decide, by decide⟩⟩

private theorem sorted531 : Sorted false [(5 : Int), 3, 1] := ⟨by simp [Le], .inr ⟨1, by decide, 3, by decide, by decide⟩⟩

example := C45_range_points (sizes := [(5, 3)]) (coord := labelCoord [some 1, some 3, some 5]) (first := label 2) (last := label 5)
  (by simp [WF, labels]) rfl ⟨rfl, rfl, by decide⟩ sorted135 (b := some 2) (e := some 5) ⟨rfl, rfl, rfl, rfl⟩ ⟨rfl, rfl, rfl, rfl⟩ (by simp [Le])
example := C45_range_edges (sizes := [(5, 2)]) (coord := labelCoord [some 5, some 3, some 1]) (first := label 4) (last := label 2)
  (by simp [WF, labels]) rfl ⟨rfl, rfl, by decide⟩ sorted531 (b := some 4) (e := some 2) ⟨rfl, rfl, rfl, rfl⟩ ⟨rfl, rfl, rfl, rfl⟩ (by simp [Lt])
example := C45_overlap_partial (sizes := [(5, 2)]) (coord := labelCoord [some 5, some 3, some 1]) (first := label 4) (last := none)
  (by simp [WF, labels]) rfl ⟨rfl, rfl, by decide⟩ sorted531 (b := some 4) (e := none) ⟨rfl, rfl, rfl, rfl⟩ trivial (by simp)
example := C45_point (sizes := [(5, 3)]) (coord := labelCoord [some 1, none, some 5]) (value := ⟨[], some 5, 0, true⟩)
  (by simp [WF, labels]) rfl (by decide) rfl rfl ⟨5, 2, -1, 1⟩
example := C45_bin (sizes := [(5, 2)]) (coord := labelCoord [some 5, some 3, some 1]) (value := ⟨[], some 2, 0, true⟩)
  (by simp [WF, labels]) ⟨rfl, rfl, by decide⟩ sorted531 rfl rfl ⟨5, 1, -1, 1⟩
example := C45_requires_sorted (sizes := [(5, 4)]) (coord := labelCoord [some 1, some 3, some 5, some 7]) rfl rfl (by decide)
  (first := label 2) (last := label 7) (s := ⟨5, 1, 3, 1⟩) rfl
example := (C45_checks_labels (sizes := [(5, 4)]) (coord := labelCoord [some 1, some 3, some 5, some 7])).1
  (first := label 2) (last := label 7) (s := ⟨5, 1, 3, 1⟩) rfl
example : (rangeSlice [(5, 4)] (labelCoord [some 1, some 3, some 5, some 7]) (some ⟨[], some 2, 0, false⟩) none).isOk = false ∧
    (rangeSlice [(5, 4)] (labelCoord [some 1, some 3, some 5, some 7]) none (some ⟨[], some 2, 1, true⟩)).isOk = false ∧
    (pointSlice [(5, 4)] (labelCoord [some 1, some 3, some 5, some 7]) ⟨[(5, 1)], some 3, 0, true⟩).isOk = false := by decide

end Scipp.Props
