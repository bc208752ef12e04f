import Verif.Spec.LookupTable
import Verif.Spec.Domains
import Verif.Props.Lookup
import Verif.Props.Domains
import Verif.Props.Midpoints
import Mathlib.Tactic.SplitIfs

/-! # Facts about lookup tables -/

namespace Scipp.LookupTable
open Scipp Scipp.Spec

variable {α W : Type} [LinearOrder α]

theorem select_sublist {β : Type} (cs : List Bool) (xs : List β) : (Domains.select cs xs).Sublist xs := by
  induction cs generalizing xs with
  | nil => cases xs <;> exact List.nil_sublist _
  | cons c cs ih =>
    cases xs with
    | nil => cases c <;> exact List.nil_sublist _
    | cons x xs =>
      cases c
      · exact (ih xs).cons _
      · exact (ih xs).cons_cons _

theorem select_length {β γ : Type} (cs : List Bool) (xs : List β) (ys : List γ) (h : xs.length = ys.length) :
    (Domains.select cs xs).length = (Domains.select cs ys).length := by
  induction cs generalizing xs ys with
  | nil => cases xs <;> cases ys <;> rfl
  | cons c cs ih =>
    match xs, ys, h with
    | [], [], _ => cases c <;> rfl
    | x :: xs, y :: ys, h =>
      have := ih xs ys (by simpa using h)
      cases c
      · simpa [Domains.select] using this
      · simpa [Domains.select] using this

theorem lastBefore_cons (a : α) (l : List α) (x : α) (i : Nat) : LastBefore (a :: l) x (i + 1) ↔ LastBefore l x i := by
  constructor
  · rintro ⟨b, hb, hbx, hn⟩
    exact ⟨b, by simpa using hb, hbx, fun j c hj hc => hn (j + 1) c (by omega) (by simpa using hc)⟩
  · rintro ⟨b, hb, hbx, hn⟩
    refine ⟨b, by simpa using hb, hbx, fun j c hj hc => ?_⟩
    obtain _ | j := j
    · omega
    · exact hn j c (by omega) (by simpa using hc)

theorem lastBefore_zero (a : α) (l : List α) (x : α) : LastBefore (a :: l) x 0 ↔ a ≤ x ∧ ∀ b ∈ l, x < b := by
  constructor
  · rintro ⟨b, hb, hbx, hn⟩
    simp only [List.getElem?_cons_zero, Option.some.injEq] at hb
    subst hb
    refine ⟨hbx, fun c hc => ?_⟩
    obtain ⟨j, hj⟩ := List.mem_iff_getElem?.1 hc
    exact hn (j + 1) c (by omega) (by simpa using hj)
  · rintro ⟨hax, hn⟩
    refine ⟨a, rfl, hax, fun j c hj hc => ?_⟩
    obtain _ | j := j
    · omega
    · exact hn c (List.mem_of_getElem? (by simpa using hc))

theorem lastBefore_exists (l : List α) (x : α) (h : ∃ a ∈ l, a ≤ x) : ∃ i, LastBefore l x i := by
  induction l with
  | nil => simp at h
  | cons b l ih =>
    by_cases hb : ∃ a ∈ l, a ≤ x
    · obtain ⟨i, hi⟩ := ih hb
      exact ⟨i + 1, (lastBefore_cons _ _ _ _).2 hi⟩
    · obtain ⟨a, ha, hax⟩ := h
      have hn : ∀ c ∈ l, x < c := fun c hc => lt_of_not_ge fun hh => hb ⟨c, hc, hh⟩
      rcases List.mem_cons.1 ha with rfl | ha
      · exact ⟨0, (lastBefore_zero _ _ _).2 ⟨hax, hn⟩⟩
      · exact absurd ⟨a, ha, hax⟩ hb

/-- Merging keeps the value at the last point not after `x`. -/
theorem mergePoints_lastBefore (ne : W → W → Bool) (hne : ∀ a b, ne a b = false → a = b) (xs : List α) (vs : List W) (a : α) (w : W)
    (hl : xs.length = vs.length) (hs : Ascending (a :: xs)) (x : α) (i : Nat) (v : W) (hi : LastBefore (a :: xs) x i)
    (hv : (w :: vs)[i]? = some v) :
    ∃ i', LastBefore (a :: Domains.select (transitions ne (w :: vs)) xs) x i' ∧
      (w :: Domains.select (transitions ne (w :: vs)) vs)[i']? = some v := by
  induction xs generalizing a w vs i with
  | nil =>
    obtain rfl : vs = [] := by simpa using hl.symm
    obtain ⟨b, hb, _⟩ := id hi
    obtain _ | i := i
    · exact ⟨0, hi, hv⟩
    · simp at hb
  | cons b xs ih =>
    match vs, hl with
    | u :: vs, hl =>
      have hl' : xs.length = vs.length := by simpa using hl
      have hs' : Ascending (b :: xs) := (List.pairwise_cons.1 hs).2
      have hab : a ≤ b := (List.pairwise_cons.1 hs).1 b (by simp)
      obtain _ | i := i
      · obtain ⟨h1, h2⟩ := (lastBefore_zero _ _ _).1 hi
        exact ⟨0, (lastBefore_zero _ _ _).2 ⟨h1, fun c hc => h2 c ((select_sublist _ _).subset hc)⟩, by simpa using hv⟩
      · rw [lastBefore_cons] at hi
        obtain ⟨i', h1, h2⟩ := ih vs b u hl' hs' i hi (by simpa using hv)
        simp only [transitions]
        cases hn : ne w u
        · have hwu := hne _ _ hn
          subst hwu
          simp only [Domains.select]
          obtain _ | k := i'
          · obtain ⟨h3, h4⟩ := (lastBefore_zero _ _ _).1 h1
            exact ⟨0, (lastBefore_zero _ _ _).2 ⟨le_trans hab h3, h4⟩, by simpa using h2⟩
          · exact ⟨k + 1, (lastBefore_cons _ _ _ _).2 ((lastBefore_cons _ _ _ _).1 h1), by simpa using h2⟩
        · simp only [Domains.select]
          exact ⟨i' + 1, (lastBefore_cons _ _ _ _).2 h1, by simpa using h2⟩

theorem mask_get (t : Table α W) (i : Nat) (hi : i < t.values.length) :
    t.mask[i]? = some (t.masks.any fun m => m.getD i false) := by
  simp [Table.mask, hi]

theorem any_masked (t : Table α W) (i : Nat) : (t.masks.any fun m => m.getD i false) = true ↔ Masked t i := by
  simp only [List.any_eq_true, Masked]
  constructor
  · rintro ⟨m, hm, h⟩
    refine ⟨m, hm, ?_⟩
    rw [List.getD_eq_getElem?_getD] at h
    cases hh : m[i]? with
    | none => simp [hh] at h
    | some b => simp [hh] at h; simp [h]
  · rintro ⟨m, hm, h⟩
    exact ⟨m, hm, by simp [List.getD_eq_getElem?_getD, h]⟩

theorem gives_of {t : Table α W} {fill : W} {i : Nat} {r : Except Err W} (hi : i < t.values.length)
    (h : ∀ m v, t.mask[i]? = some m → t.values[i]? = some v → r = .ok (if m then fill else v)) : Gives t fill i r := by
  have hv := List.getElem?_eq_getElem hi
  have hm := mask_get t i hi
  have h' := h _ _ hm hv
  constructor
  · intro hk
    rw [(any_masked t i).2 hk] at h'
    simpa using h'
  · intro hk v hv'
    rw [Bool.eq_false_iff.2 fun hh => hk ((any_masked t i).1 hh)] at h'
    rw [hv] at hv'
    cases hv'
    simpa using h'

/-- Merging of points keeps what a lookup gives. -/
theorem points (lin : List α → Bool) (ne : W → W → Bool) (hne : ∀ a b, ne a b = false → a = b) (t : Table α W)
    (hl : t.xs.length = t.values.length) (hs : Ascending t.xs) (fill : W) (x : α) :
    ∃ t', merge lin ne false t = .ok t' ∧
      (∀ i, LastBefore t.xs x i → Gives t fill i (lookupPrevious t'.xs t'.mask t'.values fill (some x))) ∧
      ((∀ a ∈ t.xs, x < a) → lookupPrevious t'.xs t'.mask t'.values fill (some x) = .ok fill) := by
  simp only [merge, Bool.false_eq_true, if_false]
  split_ifs with h1
  · refine ⟨_, rfl, ?_⟩
    simp only [Bool.and_eq_true, Bool.not_eq_eq_eq_not, Bool.not_true, List.isEmpty_eq_false_iff, List.isEmpty_iff] at h1
    obtain ⟨⟨hm, hv0⟩, _⟩ := h1
    obtain ⟨xs, values, masks, mg⟩ := t
    simp only at hl hs hm hv0
    subst hm
    match xs, values, hl, hv0 with
    | [], [], _, hv0 => exact absurd rfl hv0
    | a :: xs, w :: vs, hl, _ =>
      have hl' : xs.length = vs.length := by simpa using hl
      have hsub : (a :: Domains.select (transitions ne (w :: vs)) xs).Sublist (a :: xs) := (select_sublist _ _).cons_cons _
      have hs2 : Ascending (a :: Domains.select (transitions ne (w :: vs)) xs) := List.Pairwise.sublist hsub hs
      have hlen : (a :: Domains.select (transitions ne (w :: vs)) xs).length = (w :: Domains.select (transitions ne (w :: vs)) vs).length := by
        simpa using select_length _ _ _ hl'
      have hp : mergePoints ne ⟨a :: xs, w :: vs, [], mg⟩ =
          ⟨a :: Domains.select (transitions ne (w :: vs)) xs, w :: Domains.select (transitions ne (w :: vs)) vs, [], mg⟩ := rfl
      rw [hp]
      have hC := Props.C26_lookup_previous_partial _ hs2
        (Table.mask (⟨a :: Domains.select (transitions ne (w :: vs)) xs, w :: Domains.select (transitions ne (w :: vs)) vs, [], mg⟩ : Table α W))
        _ hlen fill x
      refine ⟨fun i hi => ?_, fun hb => hC.2 fun i c hc => hb c (hsub.subset (List.mem_of_getElem? hc))⟩
      refine ⟨fun ⟨m, hm, _⟩ => by simp at hm, fun _ v hv => ?_⟩
      obtain ⟨i', ⟨b, hb1, hb2, hb3⟩, hv'⟩ := mergePoints_lastBefore ne hne xs vs a w hl' hs x i v hi hv
      have := hC.1 i' b false v hb1 hb2 hb3 (by
        rw [mask_get _ _ (List.getElem?_eq_some_iff.1 hv').1]; rfl) hv'
      simpa using this
  · refine ⟨_, rfl, ?_⟩
    have hC := Props.C26_lookup_previous_partial _ hs t.mask _ hl fill x
    refine ⟨fun i hi => ?_, fun hb => hC.2 fun i c hc => hb c (List.mem_of_getElem? hc)⟩
    obtain ⟨b, hb1, hb2, hb3⟩ := hi
    exact gives_of (hl ▸ (List.getElem?_eq_some_iff.1 hb1).1) fun m v hm hv => hC.1 i b m v hb1 hb2 hb3 hm hv

theorem midpointsOf_ok (mid : α → α → Except Err α) (xs : List α)
    (h : ∀ a ∈ xs, ∀ b ∈ xs, ∃ m, mid a b = .ok m) : ∃ ms, midpointsOf mid xs = .ok ms := by
  induction xs with
  | nil => exact ⟨_, rfl⟩
  | cons a xs ih =>
    cases xs with
    | nil => exact ⟨_, rfl⟩
    | cons b xs =>
      obtain ⟨m, hm⟩ := h a (by simp) b (by simp)
      obtain ⟨ms, hms⟩ := ih fun c hc d hd => h c (List.mem_cons_of_mem _ hc) d (List.mem_cons_of_mem _ hd)
      exact ⟨m :: ms, by simp only [midpointsOf, hm, hms]⟩

theorem midpointsOf_get (mid : α → α → Except Err α) (xs ms : List α) (h : midpointsOf mid xs = .ok ms) :
    (xs ≠ [] → ms.length + 1 = xs.length) ∧
    ∀ (k : Nat) (m : α), ms[k]? = some m → ∃ a b, xs[k]? = some a ∧ xs[k + 1]? = some b ∧ mid a b = .ok m := by
  induction xs generalizing ms with
  | nil => cases h; simp
  | cons a xs ih =>
    cases xs with
    | nil => cases h; simp
    | cons b xs =>
      simp only [midpointsOf] at h
      split at h
      · cases h
      · rename_i m hm
        split at h
        · cases h
        · rename_i ms' hms
          cases h
          obtain ⟨h1, h2⟩ := ih ms' hms
          refine ⟨fun _ => by simpa using h1 (by simp), fun k m' hk => ?_⟩
          obtain _ | k := k
          · simp only [List.getElem?_cons_zero, Option.some.injEq] at hk
            subst hk
            exact ⟨a, b, rfl, rfl, hm⟩
          · obtain ⟨c, d, hc, hd, hcd⟩ := h2 k m' (by simpa using hk)
            exact ⟨c, d, by simpa using hc, by simpa using hd, hcd⟩

/-- The coordinate for lookup of the nearest point. -/
theorem nearestCoord_ok (mid : α → α → Except Err α) (lowest : α) (xs : List α) (hs : Ascending xs) (h0 : xs ≠ [])
    (hlow : ∀ a ∈ xs, lowest ≤ a) (hmid : ∀ a ∈ xs, ∀ b ∈ xs, a ≤ b → ∃ m, mid a b = .ok m ∧ a ≤ m ∧ m ≤ b)
    (htot : ∀ a ∈ xs, ∀ b ∈ xs, ∃ m, mid a b = .ok m) :
    ∃ ms, nearestCoord mid lowest xs = .ok (lowest :: ms) ∧ ms.length + 1 = xs.length ∧ Ascending (lowest :: ms) ∧
      ∀ (k : Nat) (m : α), ms[k]? = some m → ∃ a b, xs[k]? = some a ∧ xs[k + 1]? = some b ∧ mid a b = .ok m := by
  obtain ⟨ms, hms⟩ := midpointsOf_ok mid xs htot
  obtain ⟨h1, h2⟩ := midpointsOf_get mid xs ms hms
  have hb : ∀ (k : Nat) (m : α), ms[k]? = some m → ∃ a b, xs[k]? = some a ∧ xs[k + 1]? = some b ∧ a ≤ m ∧ m ≤ b := by
    intro k m hk
    obtain ⟨a, b, ha, hb, hab⟩ := h2 k m hk
    have hle := Ascending.le hs (show k ≤ k + 1 by omega) ha hb
    obtain ⟨m', hm', h3, h4⟩ := hmid a (List.mem_of_getElem? ha) b (List.mem_of_getElem? hb) hle
    rw [hab] at hm'
    cases hm'
    exact ⟨a, b, ha, hb, h3, h4⟩
  refine ⟨ms, ?_, h1 h0, ?_, h2⟩
  · simp only [nearestCoord, hms]
    split_ifs with hl
    · have h3 := h1 h0
      obtain rfl : ms = [] := List.eq_nil_of_length_eq_zero (by omega)
      rfl
    · rfl
  · refine List.pairwise_cons.2 ⟨fun m hm => ?_, ?_⟩
    · obtain ⟨k, hk⟩ := List.mem_iff_getElem?.1 hm
      obtain ⟨a, b, ha, _, h3, _⟩ := hb k m hk
      exact le_trans (hlow a (List.mem_of_getElem? ha)) h3
    · rw [List.pairwise_iff_getElem]
      intro i j hi hj hij
      obtain ⟨_, b, _, hb1, _, hb2⟩ := hb i _ (List.getElem?_eq_getElem hi)
      obtain ⟨c, _, hc1, _, hc2, _⟩ := hb j _ (List.getElem?_eq_getElem hj)
      exact le_trans hb2 (le_trans (Ascending.le hs (show i + 1 ≤ j by omega) hb1 hc1) hc2)

end Scipp.LookupTable
