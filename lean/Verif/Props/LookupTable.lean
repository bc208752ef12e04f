import Verif.Lemmas.LookupTable
import Mathlib.Algebra.Order.Field.Basic
import Mathlib.Tactic.Linarith
import Mathlib.Tactic.SplitIfs

/-!
# C113: lookup tables

A lookup gives the value of the bin containing the point, of the last point not after it, or of the nearest point. Merging of equal values does not change this.
-/

namespace Scipp.Props
open Scipp Scipp.Spec Scipp.LookupTable

variable {α W : Type} [LinearOrder α]

/-- **C113** (histograms): a lookup gives the value of the bin containing the point, the fill value if the bin is masked or there is none. Whether the values are of a
type for which equal ones are merged does not matter. `guess` is only used for evenly spaced edges (C18, C100). -/
theorem C113_histogram (lin : List α → Bool) (guess : List α → α → Int) (mid : α → α → Except Err α) (lowest : α) (ne : W → W → Bool)
    (hlin : ∀ es, lin es = true → Ascending es → GuessOk es (guess es)) (hne : ∀ a b, ne a b = false → a = b) (t : Table α W)
    (hl : t.xs.length = t.values.length + 1) (hs : Ascending t.xs) (fill : W) (x : Option α) :
    (∀ i, InBin t.xs i x → Gives t fill i (lookup lin guess mid lowest ne t none fill x)) ∧
    ((∀ i, ¬ InBin t.xs i x) → lookup lin guess mid lowest ne t none fill x = .ok fill) := by
  have hplain : (∀ i, InBin t.xs i x → Gives t fill i (mapFunction lin guess t.xs t.mask t.values fill x)) ∧
      ((∀ i, ¬ InBin t.xs i x) → mapFunction lin guess t.xs t.mask t.values fill x = .ok fill) := by
    have hC := C26_map lin guess t.xs hs (fun h => hlin _ h hs) t.mask t.values hl fill x
    refine ⟨fun i hi => gives_of ?_ fun m v hm hv => hC.1 i m v hi hm hv, hC.2⟩
    obtain ⟨_, _, _, _, _, h2, _⟩ := hi
    have := (List.getElem?_eq_some_iff.1 h2).1
    omega
  simp only [lookup, if_pos hl, Option.isSome_none, Bool.false_eq_true, if_false, merge, if_true]
  by_cases h1 : (t.masks.isEmpty && !t.values.isEmpty && t.mergeable) = true
  · rw [if_pos h1]
    by_cases h2 : lin t.xs = true
    · rw [if_pos h2]; exact hplain
    · rw [if_neg h2]
      simp only [Bool.and_eq_true, Bool.not_eq_eq_eq_not, Bool.not_true, List.isEmpty_eq_false_iff, List.isEmpty_iff] at h1
      obtain ⟨⟨hm, hv0⟩, _⟩ := h1
      have hne' : ∀ a b : W, ne b a = false → b = a := fun a b h => hne b a h
      obtain ⟨r, hr, hrl, _, _, hsub, _⟩ := C110_minimal ne hne' t.values t.xs hl hv0
      have hsame := C110_same_function ne hne' t.values t.xs hs r hr
      rw [hr]
      dsimp only
      have hs' : Ascending r.2 := List.Pairwise.sublist hsub hs
      have hC := C26_map lin guess r.2 hs' (fun h => hlin _ h hs') (Table.mask ({ t with xs := r.2, values := r.1 } : Table α W)) r.1 hrl fill x
      constructor
      · intro i hi
        refine ⟨fun ⟨m, hm', _⟩ => by simp [hm] at hm', fun _ v hv => ?_⟩
        obtain ⟨y, lo, hi', rfl, h3, h4, h5, h6⟩ := hi
        obtain ⟨i', a, b, h7, h8, h9, h10, h11⟩ := (hsame y v).2 ⟨i, lo, hi', h3, h4, hv, h5, h6⟩
        have := hC.1 i' false v ⟨y, a, b, rfl, h7, h8, h10, h11⟩ (by
          rw [mask_get _ _ (List.getElem?_eq_some_iff.1 h9).1, hm]; rfl) h9
        simpa using this
      · intro hno
        refine hC.2 fun i hi => ?_
        obtain ⟨y, lo, hi', rfl, h3, h4, h5, h6⟩ := hi
        have hlt : i < r.1.length := by
          have := (List.getElem?_eq_some_iff.1 h4).1
          omega
        obtain ⟨i', a, b, h7, h8, _, h10, h11⟩ := (hsame y _).1 ⟨i, lo, hi', h3, h4, List.getElem?_eq_getElem hlt, h5, h6⟩
        exact hno i' ⟨y, a, b, rfl, h7, h8, h10, h11⟩
  · rw [if_neg h1]; exact hplain

/-- **C113** (points, mode `previous`): a lookup gives the value of the last point not after `x`, the fill value if the point is masked or there is none. -/
theorem C113_previous (lin : List α → Bool) (guess : List α → α → Int) (mid : α → α → Except Err α) (lowest : α) (ne : W → W → Bool)
    (hne : ∀ a b, ne a b = false → a = b) (t : Table α W) (hl : t.xs.length = t.values.length) (hs : Ascending t.xs) (fill : W) (x : α) :
    (∀ i, LastBefore t.xs x i → Gives t fill i (lookup lin guess mid lowest ne t (some .previous) fill (some x))) ∧
    ((∀ a ∈ t.xs, x < a) → lookup lin guess mid lowest ne t (some .previous) fill (some x) = .ok fill) := by
  obtain ⟨t', ht', h1, h2⟩ := points lin ne hne t hl hs fill x
  have hne1 : ¬ t.xs.length = t.values.length + 1 := by omega
  simp only [lookup, if_neg hne1, Option.getD_some, reduceCtorEq, if_false, false_and]
  rw [show ({ t with xs := t.xs } : Table α W) = t from rfl, ht']
  exact ⟨h1, h2⟩

/-- What the mode `nearest` finds: the point in whose interval between midpoints `x` lies. -/
theorem nearest_core (lin : List α → Bool) (guess : List α → α → Int) (mid : α → α → Except Err α) (lowest : α) (ne : W → W → Bool)
    (hne : ∀ a b, ne a b = false → a = b) (t : Table α W) (hl : t.xs.length = t.values.length) (h0 : t.values ≠ []) (hs : Ascending t.xs)
    (mode : Option Mode) (hmode : mode = none ∨ mode = some .nearest) (hlow : ∀ a ∈ t.xs, lowest ≤ a)
    (hmid : ∀ a ∈ t.xs, ∀ b ∈ t.xs, a ≤ b → ∃ m, mid a b = .ok m ∧ a ≤ m ∧ m ≤ b)
    (htot : ∀ a ∈ t.xs, ∀ b ∈ t.xs, ∃ m, mid a b = .ok m) (fill : W) (x : α) :
    ∃ ms, ms.length + 1 = t.xs.length ∧
      (∀ (k : Nat) (m : α), ms[k]? = some m → ∃ a b, t.xs[k]? = some a ∧ t.xs[k + 1]? = some b ∧ mid a b = .ok m) ∧
      (∀ i, LastBefore (lowest :: ms) x i → Gives t fill i (lookup lin guess mid lowest ne t mode fill (some x))) := by
  have hx0 : t.xs ≠ [] := by
    intro h
    rw [h] at hl
    exact h0 (List.eq_nil_of_length_eq_zero hl.symm)
  obtain ⟨ms, hms, hml, hma, hmk⟩ := nearestCoord_ok mid lowest t.xs hs hx0 hlow hmid htot
  obtain ⟨t', ht', h1, _⟩ := points lin ne hne { t with xs := lowest :: ms } (by simpa using hml.trans hl) hma fill x
  refine ⟨ms, hml, hmk, fun i hi => ?_⟩
  have hne1 : ¬ t.xs.length = t.values.length + 1 := by omega
  have hmo : mode.getD .nearest = .nearest := by rcases hmode with rfl | rfl <;> rfl
  have hlen : t.values.length ≠ 0 := by simpa using h0
  simp only [lookup, if_neg hne1, hmo, reduceCtorEq, if_false, true_and, if_pos hlen, hms, ht']
  exact h1 i hi

/-- **C113** (points, mode `nearest`), floating-point coordinates: a lookup gives the value of a point with the smallest distance from `x`, the one above if there are
two. Rounding is not part of the model. -/
theorem C113_nearest (lin : List Rat → Bool) (guess : List Rat → Rat → Int) (tiny huge : Rat) (ht : 0 < tiny) (hth : 4 * tiny ≤ huge)
    (ne : W → W → Bool) (hne : ∀ a b, ne a b = false → a = b) (t : Table Rat W) (hl : t.xs.length = t.values.length) (h0 : t.values ≠ [])
    (hs : Ascending t.xs) (hb : ∀ a ∈ t.xs, |a| ≤ huge / 2) (mode : Option Mode) (hmode : mode = none ∨ mode = some .nearest) (fill : W)
    (x : Rat) (hx : -huge ≤ x) :
    ∃ i a, t.xs[i]? = some a ∧ (∀ b ∈ t.xs, |x - a| ≤ |x - b|) ∧ (∀ b ∈ t.xs, a < b → |x - a| < |x - b|) ∧
      Gives t fill i (lookup lin guess (Midpoints.midpointFloat tiny huge) (-huge) ne t mode fill (some x)) := by
  have hmid : ∀ a ∈ t.xs, ∀ b ∈ t.xs, Midpoints.midpointFloat tiny huge a b = .ok ((a + b) / 2) := by
    intro a ha b hb'
    obtain ⟨m, hm, _, h2⟩ := C73_float tiny huge a b ht hth (by have := hb a ha; linarith) (by have := hb b hb'; linarith)
    rw [hm, h2 (Or.inl ⟨hb a ha, hb b hb'⟩)]
  obtain ⟨ms, hml, hmk, hg⟩ := nearest_core lin guess (Midpoints.midpointFloat tiny huge) (-huge) ne hne t hl h0 hs mode hmode
    (fun a ha => by have := (abs_le.1 (hb a ha)).1; linarith)
    (fun a ha b hb' hab => ⟨_, hmid a ha b hb', by linarith, by linarith⟩) (fun a ha b hb' => ⟨_, hmid a ha b hb'⟩) fill x
  obtain ⟨i, hi⟩ := lastBefore_exists (-huge :: ms) x ⟨_, List.mem_cons_self, hx⟩
  have hil : i < t.xs.length := by
    obtain ⟨_, h1, _⟩ := hi
    have := (List.getElem?_eq_some_iff.1 h1).1
    simp at this; omega
  obtain ⟨a, ha⟩ : ∃ a, t.xs[i]? = some a := ⟨_, List.getElem?_eq_getElem hil⟩
  -- the midpoint below is not above `x`, the one above it is
  have hbelow : ∀ (j : Nat) (b : Rat), j < i → t.xs[j]? = some b → b ≤ a ∧ b + a ≤ 2 * x := by
    intro j b hj hjb
    obtain ⟨k, rfl⟩ : ∃ k, i = k + 1 := ⟨i - 1, by omega⟩
    obtain ⟨m, hm, hmx, _⟩ := hi
    obtain ⟨c, d, hc, hd, hcd⟩ := hmk k m (by simpa using hm)
    rw [hmid c (List.mem_of_getElem? hc) d (List.mem_of_getElem? hd)] at hcd
    cases hcd
    rw [ha] at hd
    cases hd
    have h1 := Ascending.le hs (show j ≤ k by omega) hjb hc
    have h2 := Ascending.le hs (show k ≤ k + 1 by omega) hc ha
    constructor <;> linarith
  have habove : ∀ (j : Nat) (b : Rat), i < j → t.xs[j]? = some b → a ≤ b ∧ 2 * x < a + b := by
    intro j b hj hjb
    obtain ⟨_, _, _, hn⟩ := hi
    have hjl := (List.getElem?_eq_some_iff.1 hjb).1
    have hil' : i < ms.length := by omega
    have hm := List.getElem?_eq_getElem hil'
    obtain ⟨c, d, hc, hd, hcd⟩ := hmk i _ hm
    have hlt := hn (i + 1) ms[i] (by omega) (by rw [List.getElem?_cons_succ]; exact hm)
    rw [hmid c (List.mem_of_getElem? hc) d (List.mem_of_getElem? hd)] at hcd
    rw [← Except.ok.inj hcd] at hlt
    rw [ha] at hc
    cases hc
    have h1 := Ascending.le hs (show i + 1 ≤ j by omega) hd hjb
    have h2 := Ascending.le hs (show i ≤ i + 1 by omega) ha hd
    constructor <;> linarith
  refine ⟨i, a, ha, fun b hbm => ?_, fun b hbm hab => ?_, hg i hi⟩
  · obtain ⟨j, hj⟩ := List.mem_iff_getElem?.1 hbm
    rcases Nat.lt_trichotomy j i with h | rfl | h
    · obtain ⟨h1, h2⟩ := hbelow j b h hj
      exact abs_le.2 ⟨by have := le_abs_self (x - b); linarith, by have := le_abs_self (x - b); linarith⟩
    · rw [ha] at hj; cases hj; exact le_refl _
    · obtain ⟨h1, h2⟩ := habove j b h hj
      exact abs_le.2 ⟨by have := neg_abs_le (x - b); linarith, by have := neg_abs_le (x - b); linarith⟩
  · obtain ⟨j, hj⟩ := List.mem_iff_getElem?.1 hbm
    rcases Nat.lt_trichotomy j i with h | rfl | h
    · exact absurd (hbelow j b h hj).1 (not_le.2 hab)
    · rw [ha] at hj; cases hj; exact absurd hab (lt_irrefl _)
    · obtain ⟨h1, h2⟩ := habove j b h hj
      exact abs_lt.2 ⟨by have := neg_abs_le (x - b); linarith, by have := neg_abs_le (x - b); linarith⟩

/-- **C113** (points, mode `nearest`), integer coordinates (also times): a lookup gives the value of a point whose distance from `x` is at most one more than the
smallest; it is the smallest if the midpoints are integers, and no point above is nearer. Missing: the nearest point, see `C113_wrong_int`. -/
theorem C113_nearest_int_partial (lin : List Int → Bool) (guess : List Int → Int → Int) (w : Nat) (hw : 1 ≤ w)
    (ne : W → W → Bool) (hne : ∀ a b, ne a b = false → a = b) (t : Table Int W) (hl : t.xs.length = t.values.length) (h0 : t.values ≠ [])
    (hs : Ascending t.xs) (hb : ∀ a ∈ t.xs, Representable w a) (mode : Option Mode) (hmode : mode = none ∨ mode = some .nearest) (fill : W)
    (x : Int) (hx : Representable w x) :
    ∃ i a, t.xs[i]? = some a ∧ (∀ b ∈ t.xs, (x - a).natAbs ≤ (x - b).natAbs + 1) ∧
      (∀ b ∈ t.xs, a < b → (x - a).natAbs < (x - b).natAbs) ∧
      ((∀ b ∈ t.xs, ∀ c ∈ t.xs, (b + c) % 2 = 0) → ∀ b ∈ t.xs, (x - a).natAbs ≤ (x - b).natAbs) ∧
      Gives t fill i (lookup lin guess (Midpoints.midpointInt w) (Midpoints.lowest w) ne t mode fill (some x)) := by
  have hmid : ∀ a ∈ t.xs, ∀ b ∈ t.xs, ∃ m, Midpoints.midpointInt w a b = .ok m ∧ (a ≤ b → a ≤ m ∧ 2 * m ≤ a + b ∧ a + b ≤ 2 * m + 1) := by
    intro a ha b hb'
    obtain ⟨m, hm, h1, h2, h3, h4⟩ := C73_int w hw a b (hb a ha) (hb b hb')
    exact ⟨m, hm, fun hab => by omega⟩
  obtain ⟨ms, hml, hmk, hg⟩ := nearest_core lin guess (Midpoints.midpointInt w) (Midpoints.lowest w) ne hne t hl h0 hs mode hmode
    (fun a ha => (hb a ha).1)
    (fun a ha b hb' hab => by
      obtain ⟨m, hm, h1⟩ := hmid a ha b hb'
      exact ⟨m, hm, (h1 hab).1, by have := h1 hab; omega⟩)
    (fun a ha b hb' => (hmid a ha b hb').imp fun _ h => h.1) fill x
  obtain ⟨i, hi⟩ := lastBefore_exists (Midpoints.lowest w :: ms) x ⟨_, List.mem_cons_self, hx.1⟩
  have hil : i < t.xs.length := by
    obtain ⟨_, h1, _⟩ := hi
    have := (List.getElem?_eq_some_iff.1 h1).1
    simp at this; omega
  obtain ⟨a, ha⟩ : ∃ a, t.xs[i]? = some a := ⟨_, List.getElem?_eq_getElem hil⟩
  have hbelow : ∀ (j : Nat) (b : Int), j < i → t.xs[j]? = some b → b ≤ a ∧ b + a ≤ 2 * x + 1 ∧
      ((∀ b ∈ t.xs, ∀ c ∈ t.xs, (b + c) % 2 = 0) → b + a ≤ 2 * x) := by
    intro j b hj hjb
    obtain ⟨k, rfl⟩ : ∃ k, i = k + 1 := ⟨i - 1, by omega⟩
    obtain ⟨m, hm, hmx, _⟩ := hi
    obtain ⟨c, d, hc, hd, hcd⟩ := hmk k m (by simpa using hm)
    obtain ⟨m', hm', h3⟩ := hmid c (List.mem_of_getElem? hc) d (List.mem_of_getElem? hd)
    rw [hm'] at hcd
    cases hcd
    rw [ha] at hd
    cases hd
    have h1 := Ascending.le hs (show j ≤ k by omega) hjb hc
    have h2 := Ascending.le hs (show k ≤ k + 1 by omega) hc ha
    have h4 := h3 h2
    refine ⟨by omega, by omega, fun hev => ?_⟩
    have := hev c (List.mem_of_getElem? hc) a (List.mem_of_getElem? ha)
    omega
  have habove : ∀ (j : Nat) (b : Int), i < j → t.xs[j]? = some b → a ≤ b ∧ 2 * x < a + b := by
    intro j b hj hjb
    obtain ⟨_, _, _, hn⟩ := hi
    have hjl := (List.getElem?_eq_some_iff.1 hjb).1
    have hil' : i < ms.length := by omega
    have hm := List.getElem?_eq_getElem hil'
    obtain ⟨c, d, hc, hd, hcd⟩ := hmk i _ hm
    have hlt := hn (i + 1) ms[i] (by omega) (by rw [List.getElem?_cons_succ]; exact hm)
    obtain ⟨m', hm', h3⟩ := hmid c (List.mem_of_getElem? hc) d (List.mem_of_getElem? hd)
    rw [hm'] at hcd
    rw [← Except.ok.inj hcd] at hlt
    rw [ha] at hc
    cases hc
    have h1 := Ascending.le hs (show i + 1 ≤ j by omega) hd hjb
    have h2 := Ascending.le hs (show i ≤ i + 1 by omega) ha hd
    have h4 := h3 h2
    constructor <;> omega
  refine ⟨i, a, ha, fun b hbm => ?_, fun b hbm hab => ?_, fun hev b hbm => ?_, hg i hi⟩
  all_goals
    obtain ⟨j, hj⟩ := List.mem_iff_getElem?.1 hbm
    rcases Nat.lt_trichotomy j i with h | rfl | h
    · have := hbelow j b h hj
      first | omega | (have := this.2.2 hev; omega)
    · rw [ha] at hj; cases hj; omega
    · have := habove j b h hj
      omega

/-- **C113**, broken: with integer coordinates (also times), a lookup at a point of the table that is followed by a point one larger gives the value of the latter,
whatever the other points. For a coordinate `0, 1, 2, ...` every point but the last gives the value of its neighbor. -/
theorem C113_wrong_int (lin : List Int → Bool) (guess : List Int → Int → Int) (w : Nat) (hw : 1 ≤ w)
    (ne : W → W → Bool) (hne : ∀ a b, ne a b = false → a = b) (t : Table Int W) (hl : t.xs.length = t.values.length)
    (hs : Ascending t.xs) (hb : ∀ a ∈ t.xs, Representable w a) (mode : Option Mode) (hmode : mode = none ∨ mode = some .nearest) (fill : W)
    (i : Nat) (a : Int) (ha : t.xs[i]? = some a) (ha' : t.xs[i + 1]? = some (a + 1)) :
    Gives t fill (i + 1) (lookup lin guess (Midpoints.midpointInt w) (Midpoints.lowest w) ne t mode fill (some a)) := by
  have h0 : t.values ≠ [] := by
    rintro h
    have := (List.getElem?_eq_some_iff.1 ha).1
    rw [hl, h] at this
    simp at this
  have hmid : ∀ a ∈ t.xs, ∀ b ∈ t.xs, ∃ m, Midpoints.midpointInt w a b = .ok m ∧ (a ≤ b → a ≤ m ∧ 2 * m ≤ a + b ∧ a + b ≤ 2 * m + 1) := by
    intro a ha b hb'
    obtain ⟨m, hm, h1, h2, h3, h4⟩ := C73_int w hw a b (hb a ha) (hb b hb')
    exact ⟨m, hm, fun hab => by omega⟩
  obtain ⟨ms, hml, hmk, hg⟩ := nearest_core lin guess (Midpoints.midpointInt w) (Midpoints.lowest w) ne hne t hl h0 hs mode hmode
    (fun a ha => (hb a ha).1)
    (fun a ha b hb' hab => by
      obtain ⟨m, hm, h1⟩ := hmid a ha b hb'
      exact ⟨m, hm, (h1 hab).1, by have := h1 hab; omega⟩)
    (fun a ha b hb' => (hmid a ha b hb').imp fun _ h => h.1) fill a
  have hil : i < ms.length := by
    have := (List.getElem?_eq_some_iff.1 ha').1
    omega
  have key : ∀ (k : Nat) (c d m : Int), t.xs[k]? = some c → t.xs[k + 1]? = some d → ms[k]? = some m →
      c ≤ m ∧ 2 * m ≤ c + d ∧ c + d ≤ 2 * m + 1 := by
    intro k c d m hc hd hm
    obtain ⟨c', d', hc', hd', hcd⟩ := hmk k m hm
    rw [hc] at hc'; rw [hd] at hd'; cases hc'; cases hd'
    obtain ⟨m', hm', h3⟩ := hmid c (List.mem_of_getElem? hc) d (List.mem_of_getElem? hd)
    rw [hm'] at hcd; cases hcd
    exact h3 (Ascending.le hs (show k ≤ k + 1 by omega) hc hd)
  refine hg (i + 1) ⟨ms[i], by rw [List.getElem?_cons_succ]; exact List.getElem?_eq_getElem hil, ?_, fun j b hj hjb => ?_⟩
  · have := key i a (a + 1) ms[i] ha ha' (List.getElem?_eq_getElem hil)
    omega
  · obtain ⟨k, rfl⟩ : ∃ k, j = k + 1 := ⟨j - 1, by omega⟩
    rw [List.getElem?_cons_succ] at hjb
    obtain ⟨c, d, hc, hd, _⟩ := hmk k b hjb
    have h1 := key k c d b hc hd hjb
    have h2 := Ascending.le hs (show i + 1 ≤ k by omega) ha' hc
    omega

/-- **C113**: a mode for a histogram and unknown modes are rejected. -/
theorem C113_refused_mode (lin : List α → Bool) (guess : List α → α → Int) (mid : α → α → Except Err α) (lowest : α) (ne : W → W → Bool)
    (t : Table α W) (fill : W) (x : Option α) :
    (∀ m, t.xs.length = t.values.length + 1 → lookup lin guess mid lowest ne t (some m) fill x = .error .invalidArgument) ∧
    lookup lin guess mid lowest ne t (some .other) fill x = .error .invalidArgument := by
  refine ⟨fun m h => by simp [lookup, h], ?_⟩
  simp only [lookup, Option.isSome_some, if_true, Option.getD_some]
  split_ifs <;> rfl

/-- **C113**: unless equal values are merged, points that are not in order are rejected in the mode `previous`. -/
theorem C113_refused_previous (lin : List α → Bool) (guess : List α → α → Int) (mid : α → α → Except Err α) (lowest : α) (ne : W → W → Bool)
    (t : Table α W) (hl : t.xs.length = t.values.length) (hs : ¬ Ascending t.xs) (hm : t.mergeable = false ∨ t.masks ≠ []) (fill : W)
    (x : Option α) : lookup lin guess mid lowest ne t (some .previous) fill x = .error .dataArray := by
  have hne1 : ¬ t.xs.length = t.values.length + 1 := by omega
  have hno : ¬ (t.masks.isEmpty && !t.values.isEmpty && t.mergeable) = true := by
    rcases hm with h | h
    · simp [h]
    · simp [h]
  have hso : ¬ isSorted t.xs = true := fun h => hs ((isSorted_iff _).1 h)
  simp only [lookup, if_neg hne1, Option.getD_some, reduceCtorEq, if_false, false_and, merge, if_neg hno, lookupPrevious, if_neg hso]

theorem order_perm {data : Dims} (hw : Sizes.WF data) {dim : Dim} (hd : dim ∈ Sizes.labels data) :
    ((Sizes.labels data).filter (· ≠ dim) ++ [dim]).Perm (Sizes.labels data) := by
  have hnd : (Sizes.labels data).Nodup := hw.1
  rw [List.perm_ext_iff_of_nodup _ hnd]
  · intro a
    simp only [List.mem_append, List.mem_filter, List.mem_singleton, decide_eq_true_eq]
    constructor
    · rintro (h | rfl)
      · exact h.1
      · exact hd
    · intro h
      by_cases ha : a = dim
      · exact Or.inr ha
      · exact Or.inl ⟨h, ha⟩
  · rw [List.nodup_append]
    refine ⟨hnd.filter _, by simp, ?_⟩
    intro a ha b hb hab
    simp only [List.mem_filter, decide_eq_true_eq] at ha
    simp only [List.mem_singleton] at hb
    exact ha.2 (hab.trans hb)

/-- **C113** (tables of several dimensions): if the coordinate has all dims of the data, the table is rearranged such that the dimension of the lookup is the inner one and
the others keep their order. Missing: a coordinate with fewer dims, see `C113_wrong_outer`. -/
theorem C113_arrange_partial (data coord : Dims) (masks : List Dims) (dim : Dim) (hw : Sizes.WF data) (hwc : Sizes.WF coord)
    (hwm : ∀ m ∈ masks, Sizes.WF m) (hi : Dim.invalid ∉ Sizes.labels data) (hd : dim ∈ Sizes.labels data)
    (hc : (Sizes.labels coord).Perm (Sizes.labels data)) (hm : ∀ m ∈ masks, ∀ d ∈ Sizes.labels m, d ∈ Sizes.labels data) :
    ∃ data' coord' masks', arrange data coord masks dim = .ok (data', coord', masks') ∧ data'.Perm data ∧ coord'.Perm coord ∧
      List.Forall₂ (fun m' m => m'.Perm m ∧ ((Sizes.labels data).getLast? ≠ some dim → (Sizes.labels m').Sublist (Sizes.labels data'))) masks' masks ∧
      (Sizes.labels data').getLast? = some dim ∧ (Sizes.labels data').filter (· ≠ dim) = (Sizes.labels data).filter (· ≠ dim) ∧
      ((Sizes.labels data).getLast? ≠ some dim → Sizes.labels coord' = Sizes.labels data') := by
  by_cases hl : (Sizes.labels data).getLast? ≠ some dim
  · have hp := order_perm hw hd
    have hne : ((Sizes.labels data).filter (· ≠ dim) ++ [dim]).isEmpty = false := by simp
    have hio : Dim.invalid ∉ (Sizes.labels data).filter (· ≠ dim) ++ [dim] := fun h => hi (hp.mem_iff.1 h)
    obtain ⟨data', h1⟩ := transposeImpl_exists hw hio hp
    obtain ⟨coord', h2⟩ := transposeImpl_exists hwc hio (hp.trans hc.symm)
    obtain ⟨h3, h4, _⟩ := transposeImpl_ok h1
    obtain ⟨h5, h6, _⟩ := transposeImpl_ok h2
    have hmask : ∀ m : Dims, Sizes.WF m → (∀ d ∈ Sizes.labels m, d ∈ Sizes.labels data) →
        ∃ m', arrangeMask ((Sizes.labels data).filter (· ≠ dim) ++ [dim]) m = .ok m' ∧ m'.Perm m ∧ (Sizes.labels m').Sublist (Sizes.labels data') := by
      intro m hmw hsub
      have hpm : (((Sizes.labels data).filter (· ≠ dim) ++ [dim]).filter fun d => d ∈ Sizes.labels m).Perm (Sizes.labels m) := by
        rw [List.perm_ext_iff_of_nodup ((hp.nodup_iff.2 hw.1).filter _) hmw.1]
        intro a
        simp only [List.mem_filter, decide_eq_true_eq]
        exact ⟨fun h => h.2, fun h => ⟨hp.mem_iff.2 (hsub a h), h⟩⟩
      have hsl := List.filter_sublist (p := fun d => decide (d ∈ Sizes.labels m)) (l := (Sizes.labels data).filter (· ≠ dim) ++ [dim])
      simp only [arrangeMask, Dims.transpose]
      split_ifs with he
      · rw [List.isEmpty_iff] at he
        rw [he] at hpm
        have hm0 : Sizes.labels m = [] := hpm.symm.eq_nil
        obtain rfl : m = [] := by simpa [Sizes.labels] using hm0
        exact ⟨[], rfl, List.Perm.refl _, List.nil_sublist _⟩
      · obtain ⟨m', h7⟩ := transposeImpl_exists hmw (fun h => hio (hsl.subset h)) hpm
        obtain ⟨h8, h9, _⟩ := transposeImpl_ok h7
        exact ⟨m', h7, h9, by rw [h8, h3]; exact hsl⟩
    have hmasks : ∃ masks', masks.mapM (arrangeMask ((Sizes.labels data).filter (· ≠ dim) ++ [dim])) = .ok masks' ∧
        List.Forall₂ (fun m' m : Dims => m'.Perm m ∧ (Sizes.labels m').Sublist (Sizes.labels data')) masks' masks := by
      clear hc
      induction masks with
      | nil => exact ⟨[], rfl, .nil⟩
      | cons m ms ih =>
        obtain ⟨ms', hms, hf⟩ := ih (fun m h => hwm m (List.mem_cons_of_mem _ h)) (fun m h => hm m (List.mem_cons_of_mem _ h))
        obtain ⟨m', hm', h7⟩ := hmask m (hwm m (by simp)) (hm m (by simp))
        refine ⟨m' :: ms', ?_, .cons h7 hf⟩
        rw [List.mapM_cons, hm', hms]
        rfl
    obtain ⟨masks', h7, h8⟩ := hmasks
    refine ⟨data', coord', masks', ?_, h4, h6, h8.imp fun _ _ h => ⟨h.1, fun _ => h.2⟩, by rw [h3]; simp, ?_, fun _ => by rw [h5, h3]⟩
    · simp only [arrange, if_pos hl, Dims.transpose, hne, Bool.false_eq_true, if_false, h1, h2, h7]
    · rw [h3, List.filter_append]
      simp
  · refine ⟨data, coord, masks, by simp only [arrange, if_neg hl], List.Perm.refl _, List.Perm.refl _, ?_, not_not.1 hl, rfl, fun h => absurd h hl⟩
    have : ∀ ms : List Dims, List.Forall₂ (fun m' m : Dims => m'.Perm m ∧ ((Sizes.labels data).getLast? ≠ some dim →
        (Sizes.labels m').Sublist (Sizes.labels data))) ms ms := by
      intro ms
      induction ms with
      | nil => exact .nil
      | cons m ms ih => exact .cons ⟨List.Perm.refl _, fun h => absurd h hl⟩ ih
    exact this masks

/-- **C113**, broken: if the dimension of the lookup is not the inner one and the coordinate has fewer dims than the data, e.g., only this one, the table is refused.
With the dimension as the inner one such a coordinate is accepted. -/
theorem C113_wrong_outer (data coord : Dims) (masks : List Dims) (dim : Dim) (hw : Sizes.WF data) (hi : Dim.invalid ∉ Sizes.labels data)
    (hd : dim ∈ Sizes.labels data) (hc : coord.length < data.length) :
    ((Sizes.labels data).getLast? ≠ some dim → arrange data coord masks dim = .error .dimension) ∧
    ((Sizes.labels data).getLast? = some dim → arrange data coord masks dim = .ok (data, coord, masks)) := by
  refine ⟨fun hl => ?_, fun hl => by simp [arrange, hl]⟩
  have hp := order_perm hw hd
  have hne : ((Sizes.labels data).filter (· ≠ dim) ++ [dim]).isEmpty = false := by simp
  obtain ⟨data', h1⟩ := transposeImpl_exists hw (fun h => hi (hp.mem_iff.1 h)) hp
  have hlen : ((Sizes.labels data).filter (· ≠ dim) ++ [dim]).length ≠ coord.length := by
    rw [hp.length_eq]
    simp only [Sizes.labels, List.length_map]
    omega
  have h2 : Dims.transposeImpl coord ((Sizes.labels data).filter (· ≠ dim) ++ [dim]) = .error .dimension := by
    simp only [Dims.transposeImpl, if_pos hlen]
  simp only [arrange, if_pos hl, Dims.transpose, hne, Bool.false_eq_true, if_false, h1, h2]

section Witnesses

private def ne' (a b : Int) : Bool := a ≠ b
private theorem ne'_spec (a b : Int) (h : ne' a b = false) : a = b := by simpa [ne'] using h
private def noLin {β : Type} (_ : List β) : Bool := false
private def noGuess {β : Type} (_ : List β) (_ : β) : Int := 0
private def look (t : Table Int Int) (mode : Option Mode) (x : Int) : Except Err Int :=
  lookup noLin noGuess (Midpoints.midpointInt 64) (Midpoints.lowest 64) ne' t mode (-1) (some x)

/-- **C113**, broken: in the mode `nearest` points that are not in order are not rejected if the midpoints are in order. The first table has the points 10 and 0, at 10 the
value of 0 is found. In the second, the point nearest to 9 is 10, and the value of 4 is found. -/
theorem C113_wrong_unsorted :
    look ⟨[10, 0], [100, 200], [], false⟩ none 10 = .ok 200 ∧ look ⟨[0, 10, 4], [100, 200, 300], [], false⟩ none 9 = .ok 300 ∧
    look ⟨[10, 0], [100, 200], [], false⟩ (some .previous) 10 = .error .dataArray := by
  decide +kernel

/-- **C113**, broken: whether edges or points that are not in order are rejected depends on the type of the values, since merging of equal values may remove the
offending ones. -/
theorem C113_wrong_merge :
    look ⟨[0, 5, 3, 7], [1, 1, 2], [], true⟩ none 4 = .ok 2 ∧ look ⟨[0, 5, 3, 7], [1, 1, 2], [], false⟩ none 4 = .error .binEdge ∧
    look ⟨[0, 5, 3], [1, 1, 2], [], true⟩ (some .previous) 4 = .ok 2 ∧
    look ⟨[0, 5, 3], [1, 1, 2], [], false⟩ (some .previous) 4 = .error .dataArray := by
  decide +kernel

example : look ⟨[0, 2, 5, 6, 9], [1, 1, 2, 2], [], true⟩ none 5 = .ok 2 ∧ look ⟨[0, 2, 5, 6, 9], [1, 1, 2, 2], [], true⟩ none 9 = .ok (-1) ∧
    look ⟨[0, 2, 5, 6], [1, 1, 2, 2], [], true⟩ (some .previous) 3 = .ok 1 ∧
    look ⟨[0, 4, 10], [1, 2, 3], [[false, true, false], [false, false, false]], true⟩ none 5 = .ok (-1) ∧
    look ⟨[0, 4, 10], [1, 2, 3], [], true⟩ none 7 = .ok 3 ∧ look ⟨[0, 1, 2], [1, 2, 3], [], true⟩ none 0 = .ok 2 := by
  decide +kernel

example := (C113_histogram noLin noGuess (Midpoints.midpointInt 64) (Midpoints.lowest 64) ne' (fun _ h => by simp [noLin] at h) ne'_spec
  ⟨[0, 2, 5, 6, 9], [1, 1, 2, 2], [], true⟩ rfl (by unfold Ascending; decide) (-1) (some 5)).1 2 ⟨5, 5, 6, rfl, rfl, rfl, by decide, by decide⟩

example := (C113_previous noLin noGuess (Midpoints.midpointInt 64) (Midpoints.lowest 64) ne' ne'_spec
  ⟨[0, 2, 5, 6], [1, 1, 2, 2], [], true⟩ rfl (by unfold Ascending; decide) (-1) 3).1 1 ⟨2, rfl, by decide, by
    rintro (_ | _ | _ | _ | j) b h1 h2 <;> simp at h1 h2 <;> omega⟩

example := C113_nearest noLin noGuess (1 / 8) 100 (by norm_num) (by norm_num) ne' ne'_spec
  ⟨[0, 1, 5 / 2], [1, 1, 2], [[false, true, false]], true⟩ rfl (by simp) (by unfold Ascending; decide +kernel) (by decide +kernel) none (Or.inl rfl) (-1)
  (7 / 4) (by norm_num)

example := C113_nearest_int_partial noLin noGuess 64 (by decide) ne' ne'_spec ⟨[0, 4, 10], [1, 2, 3], [], true⟩ rfl (by simp)
  (by unfold Ascending; decide) (by unfold Representable; decide) none (Or.inl rfl) (-1) 7 (by unfold Representable; decide)

example := C113_wrong_int noLin noGuess 64 (by decide) ne' ne'_spec ⟨[0, 1, 2], [1, 2, 3], [], true⟩ rfl
  (by unfold Ascending; decide) (by unfold Representable; decide) none (Or.inl rfl) (-1) 0 0 rfl rfl

example := (C113_refused_mode noLin noGuess (Midpoints.midpointInt 64) (Midpoints.lowest 64) ne' ⟨[0, 2, 5], [1, 2], [], true⟩ (-1) (some 3)).1 .nearest rfl

example := C113_refused_previous noLin noGuess (Midpoints.midpointInt 64) (Midpoints.lowest 64) ne' ⟨[0, 7, 5], [1, 2, 3], [], false⟩ rfl
  (by unfold Ascending; decide) (Or.inl rfl) (-1) (some 3)

example : arrange [(1, 2), (2, 3), (3, 4)] [(1, 2), (2, 4), (3, 4)] [[(2, 3), (3, 4)], []] 2 =
    .ok ([(1, 2), (3, 4), (2, 3)], [(1, 2), (3, 4), (2, 4)], [[(3, 4), (2, 3)], []]) := by rfl

example := C113_arrange_partial [(1, 2), (2, 3), (3, 4)] [(1, 2), (2, 4), (3, 4)] [[(2, 3), (3, 4)], []] 2 (by simp [Sizes.WF]) (by simp [Sizes.WF])
  (by unfold Sizes.WF; decide) (by decide) (by decide) (by decide) (by decide)

example := (C113_wrong_outer [(1, 2), (2, 3)] [(1, 3)] [] 1 (by simp [Sizes.WF]) (by decide) (by decide) (by decide)).1 (by decide)

end Witnesses

end Scipp.Props
