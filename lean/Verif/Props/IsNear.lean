import Verif.Model.IsNear
import Mathlib.Data.List.Nodup
import Mathlib.Data.List.Perm.Subperm
/-!
C126: comparison of data arrays with tolerance.
-/
namespace Scipp.Props
open Scipp Scipp.IsNear

theorem lookup_iff {V : Type} {l : List (Nat × Var V)} (hn : (l.map (·.1)).Nodup) (k : Nat) (b : Var V) : (l.find? (fun e => e.1 == k)).map (·.2) = some b ↔ (k, b) ∈ l := by
  cases hf : l.find? (fun e => e.1 == k) with
  | none =>
    rw [List.find?_eq_none] at hf
    refine ⟨fun h => (by cases h), fun h => absurd (beq_self_eq_true k) (hf (k, b) h)⟩
  | some e =>
    have h1 : e.1 = k := by simpa using List.find?_some hf
    have h2 := List.mem_of_find?_eq_some hf
    rw [Option.map_some, Option.some.injEq]
    constructor
    · rintro rfl; rw [← h1]; exact h2
    · intro h
      have := List.inj_on_of_nodup_map hn h2 h h1
      rw [this]

theorem loop_true {V : Type} (close : Var V → Var V → Except Err Bool) (other l : List (Nat × Var V)) (hn : (other.map (·.1)).Nodup) :
    loop close other l = .ok true ↔ ∀ k a, (k, a) ∈ l → ∃ b, (k, b) ∈ other ∧ a.shape = b.shape ∧ (a.float = true → close a b = .ok true) := by
  induction l with
  | nil => simp [loop]
  | cons e l ih =>
    obtain ⟨key, a⟩ := e
    have hsplit : (∀ k a', (k, a') ∈ (key, a) :: l → ∃ b, (k, b) ∈ other ∧ a'.shape = b.shape ∧ (a'.float = true → close a' b = .ok true)) ↔
        (∃ b, (key, b) ∈ other ∧ a.shape = b.shape ∧ (a.float = true → close a b = .ok true)) ∧
        ∀ k a', (k, a') ∈ l → ∃ b, (k, b) ∈ other ∧ a'.shape = b.shape ∧ (a'.float = true → close a' b = .ok true) := by
      constructor
      · intro h
        exact ⟨h key a (by simp), fun k a' h' => h k a' (by simp [h'])⟩
      · rintro ⟨h1, h2⟩ k a' h
        rcases List.mem_cons.1 h with h | h
        · cases h; exact h1
        · exact h2 k a' h
    rw [hsplit, ← ih]
    simp only [loop]
    cases hl : (other.find? (fun e => e.1 == key)).map (·.2) with
    | none =>
      constructor
      · intro h; cases h
      · rintro ⟨⟨b, hb, _⟩, _⟩
        rw [(lookup_iff hn key b).2 hb] at hl
        cases hl
    | some b =>
      have hb := (lookup_iff hn key b).1 hl
      have huniq : ∀ b', (key, b') ∈ other → b' = b := by
        intro b' hb'
        have := (lookup_iff hn key b').2 hb'
        rw [hl] at this
        exact (Option.some.inj this).symm
      simp only
      by_cases hs : a.shape = b.shape
      · rw [if_neg (fun h => h hs)]
        cases hf : a.float with
        | false =>
          simp only [Bool.false_eq_true, if_false]
          exact ⟨fun h => ⟨⟨b, hb, hs, fun h' => (by cases h')⟩, h⟩, fun h => h.2⟩
        | true =>
          simp only [if_true]
          cases hc : close a b with
          | error e =>
            constructor
            · intro h; cases h
            · rintro ⟨⟨b', hb', _, h⟩, _⟩
              rw [huniq b' hb', hc] at h
              cases h trivial
          | ok v =>
            cases v with
            | false =>
              constructor
              · intro h; cases h
              · rintro ⟨⟨b', hb', _, h⟩, _⟩
                rw [huniq b' hb', hc] at h
                cases h trivial
            | true =>
              exact ⟨fun h => ⟨⟨b, hb, hs, fun _ => hc⟩, h⟩, fun h => h.2⟩
      · rw [if_pos hs]
        constructor
        · intro h; cases h
        · rintro ⟨⟨b', hb', h, _⟩, _⟩
          rw [huniq b' hb'] at h
          exact absurd h hs

/-- **C126** What is found to be near: the data, if it is compared, is close; both have the same number of coords; those of the same name have the same shape, and are close if they are floating-point numbers. -/
theorem C126_near {V : Type} (close : Var V → Var V → Except Err Bool) (x y : Arr V) (includeAttrs includeData : Bool) (hn : ((y.info includeAttrs).map (·.1)).Nodup) :
    isnear close x y includeAttrs includeData = .ok true ↔
      (includeData = true → close x.data y.data = .ok true) ∧ (x.info includeAttrs).length = (y.info includeAttrs).length ∧
      ∀ k a, (k, a) ∈ x.info includeAttrs → ∃ b, (k, b) ∈ y.info includeAttrs ∧ a.shape = b.shape ∧ (a.float = true → close a b = .ok true) := by
  rw [← loop_true close (y.info includeAttrs) (x.info includeAttrs) hn]
  unfold isnear
  cases hd : (if includeData = true then close x.data y.data else .ok true) with
  | error e =>
    constructor
    · intro h; cases h
    · rintro ⟨h, _⟩
      cases includeData with
      | false => cases hd
      | true => rw [if_pos rfl, h rfl] at hd; cases hd
  | ok v =>
    simp only
    have hv : v = true ↔ (includeData = true → close x.data y.data = .ok true) := by
      cases includeData with
      | false =>
        rw [if_neg (by simp)] at hd
        simp [← Except.ok.inj hd]
      | true =>
        rw [if_pos rfl] at hd
        rw [hd]
        simp
    by_cases hl : (x.info includeAttrs).length = (y.info includeAttrs).length
    · rw [if_neg (fun h => h hl)]
      cases hlp : loop close (y.info includeAttrs) (x.info includeAttrs) with
      | error e => exact ⟨fun h => (by cases h), fun h => (by cases h.2.2)⟩
      | ok w =>
        cases w with
        | false =>
          refine ⟨fun h => ?_, fun h => ?_⟩
          · cases h
          · cases h.2.2
        | true =>
          simp only
          rw [Except.ok.injEq, hv]
          exact ⟨fun h => ⟨h, hl, trivial⟩, fun h => h.1⟩
    · rw [if_pos hl]
      exact ⟨fun h => (by cases h), fun h => absurd h.2.1 hl⟩

/-- **C126** (partial: for coords which are floating-point numbers) Data arrays are near if and only if the data is close and they have coords with the same names, which are close. -/
theorem C126_equivalent_partial {V : Type} (close : Var V → Var V → Except Err Bool) (x y : Arr V) (includeAttrs : Bool) (hx : ((x.info includeAttrs).map (·.1)).Nodup) (hy : ((y.info includeAttrs).map (·.1)).Nodup)
    (hf : ∀ e ∈ x.info includeAttrs, e.2.float = true) (hs : ∀ a b, close a b = .ok true → a.shape = b.shape) :
    isnear close x y includeAttrs true = .ok true ↔
      close x.data y.data = .ok true ∧ (∀ k, k ∈ (x.info includeAttrs).map (·.1) ↔ k ∈ (y.info includeAttrs).map (·.1)) ∧
      ∀ k a b, (k, a) ∈ x.info includeAttrs → (k, b) ∈ y.info includeAttrs → close a b = .ok true := by
  rw [C126_near close x y includeAttrs true hy]
  constructor
  · rintro ⟨h1, h2, h3⟩
    have hsub : (x.info includeAttrs).map (·.1) ⊆ (y.info includeAttrs).map (·.1) := by
      intro k hk
      obtain ⟨⟨k', a⟩, he, rfl⟩ := List.mem_map.1 hk
      obtain ⟨b, hb, _⟩ := h3 k' a he
      exact List.mem_map.2 ⟨(k', b), hb, rfl⟩
    have hperm : ((x.info includeAttrs).map (·.1)).Perm ((y.info includeAttrs).map (·.1)) :=
      (List.subperm_of_subset hx hsub).perm_of_length_le (by rw [List.length_map, List.length_map, h2]; exact Nat.le_refl _)
    refine ⟨h1 rfl, fun k => hperm.mem_iff, ?_⟩
    intro k a b ha hb
    obtain ⟨b', hb', _, hc⟩ := h3 k a ha
    have := List.inj_on_of_nodup_map hy hb hb' rfl
    rw [(Prod.mk.inj this).2]
    exact hc (hf _ ha)
  · rintro ⟨h1, h2, h3⟩
    have hperm : ((x.info includeAttrs).map (·.1)).Perm ((y.info includeAttrs).map (·.1)) := (List.perm_ext_iff_of_nodup hx hy).2 h2
    refine ⟨fun _ => h1, by simpa using hperm.length_eq, ?_⟩
    intro k a ha
    obtain ⟨⟨k', b⟩, hb, rfl⟩ := List.mem_map.1 ((h2 k).1 (List.mem_map.2 ⟨_, ha, rfl⟩))
    have hc := h3 k' a b ha hb
    exact ⟨b, hb, hs a b hc, fun _ => hc⟩

theorem loop_append {V : Type} (close : Var V → Var V → Except Err Bool) (other pre l : List (Nat × Var V)) (h : loop close other pre = .ok true) : loop close other (pre ++ l) = loop close other l := by
  induction pre with
  | nil => rfl
  | cons e pre ih =>
    obtain ⟨key, a⟩ := e
    simp only [loop, List.cons_append] at h ⊢
    cases hl : (other.find? (fun e => e.1 == key)).map (·.2) with
    | none => rw [hl] at h; cases h
    | some b =>
      rw [hl] at h
      simp only at h ⊢
      by_cases hs : a.shape = b.shape
      · rw [if_neg (fun h => h hs)] at h ⊢
        cases hf : a.float with
        | false => rw [hf] at h; simp only [Bool.false_eq_true, if_false] at h ⊢; exact ih h
        | true =>
          rw [hf] at h
          simp only [if_true] at h ⊢
          cases hc : close a b with
          | error e => rw [hc] at h; cases h
          | ok v =>
            rw [hc] at h
            cases v with
            | false => cases h
            | true => exact ih h
      · rw [if_pos hs] at h; cases h

/-- **C126** Errors, as documented: the first coord (after those which are near) which is missing in the other data array or has a different shape there. -/
theorem C126_rejects {V : Type} (close : Var V → Var V → Except Err Bool) (x y : Arr V) (includeAttrs : Bool) (hn : ((y.info includeAttrs).map (·.1)).Nodup)
    (pre post : List (Nat × Var V)) (k : Nat) (a : Var V) (hx : x.info includeAttrs = pre ++ (k, a) :: post) (hlen : (x.info includeAttrs).length = (y.info includeAttrs).length)
    (hpre : ∀ k a, (k, a) ∈ pre → ∃ b, (k, b) ∈ y.info includeAttrs ∧ a.shape = b.shape ∧ (a.float = true → close a b = .ok true)) :
    (k ∉ (y.info includeAttrs).map (·.1) → isnear close x y includeAttrs false = .error .notFound) ∧
    (∀ b, (k, b) ∈ y.info includeAttrs → a.shape ≠ b.shape → isnear close x y includeAttrs false = .error .dataArray) := by
  have hp := (loop_true close (y.info includeAttrs) pre hn).2 hpre
  unfold isnear
  simp only [Bool.false_eq_true, if_false]
  rw [if_neg (fun h => h hlen), hx, loop_append _ _ _ _ hp]
  constructor
  · intro hk
    have hl : ((y.info includeAttrs).find? (fun e => e.1 == k)).map (·.2) = none := by
      cases hl : ((y.info includeAttrs).find? (fun e => e.1 == k)).map (·.2) with
      | none => rfl
      | some b => exact absurd (List.mem_map.2 ⟨_, (lookup_iff hn k b).1 hl, rfl⟩) hk
    simp only [loop, hl]
  · intro b hb hs
    simp only [loop, (lookup_iff hn k b).2 hb]
    rw [if_pos hs]

/-- **C126** No other errors: there is a result if comparing the values of variables gives no errors, and any coord has the same shape in the other data array. -/
theorem C126_succeeds {V : Type} (close : Var V → Var V → Except Err Bool) (x y : Arr V) (includeAttrs includeData : Bool) (hn : ((y.info includeAttrs).map (·.1)).Nodup)
    (hc : ∀ a b, a.shape = b.shape → ∃ v, close a b = .ok v) (hd : x.data.shape = y.data.shape)
    (hx : ∀ k a, (k, a) ∈ x.info includeAttrs → ∃ b, (k, b) ∈ y.info includeAttrs ∧ a.shape = b.shape) :
    ∃ v, isnear close x y includeAttrs includeData = .ok v := by
  have hl : ∀ l : List (Nat × Var V), (∀ k a, (k, a) ∈ l → ∃ b, (k, b) ∈ y.info includeAttrs ∧ a.shape = b.shape) → ∃ v, loop close (y.info includeAttrs) l = .ok v := by
    intro l
    induction l with
    | nil => intro _; exact ⟨true, rfl⟩
    | cons e l ih =>
      obtain ⟨key, a⟩ := e
      intro h
      obtain ⟨b, hb, hs⟩ := h key a (by simp)
      obtain ⟨w, hw⟩ := ih (fun k a' h' => h k a' (by simp [h']))
      simp only [loop, (lookup_iff hn key b).2 hb]
      rw [if_neg (fun h => h hs)]
      cases hf : a.float with
      | false => simp only [Bool.false_eq_true, if_false]; exact ⟨w, hw⟩
      | true =>
        simp only [if_true]
        obtain ⟨v, hv⟩ := hc a b hs
        rw [hv]
        cases v with
        | false => exact ⟨false, rfl⟩
        | true => exact ⟨w, hw⟩
  obtain ⟨v, hv⟩ := hl _ hx
  have hdata : ∃ s, (if includeData = true then close x.data y.data else .ok true) = .ok s := by
    cases includeData with
    | false => exact ⟨true, rfl⟩
    | true => exact hc _ _ hd
  obtain ⟨s, hs⟩ := hdata
  unfold isnear
  rw [hs]
  simp only
  split
  · exact ⟨_, rfl⟩
  · rw [hv]
    cases v with
    | false => exact ⟨_, rfl⟩
    | true => exact ⟨_, rfl⟩

/-- **C126** fails for coords which are no floating-point numbers (integers, times, text): they are near whatever their values. -/
theorem C126_wrong_dtype {V : Type} (close : Var V → Var V → Except Err Bool) (data : Var V) (h : close data data = .ok true) (k : Nat) (a b : Var V) (ha : a.float = false) (hs : a.shape = b.shape) :
    isnear close ⟨data, [(k, a)], [], []⟩ ⟨data, [(k, b)], [], []⟩ true true = .ok true := by
  rw [C126_near _ _ _ _ _ (by simp [Arr.info])]
  refine ⟨fun _ => h, by simp [Arr.info], ?_⟩
  intro k' a' hk
  simp only [Arr.info, if_true, List.append_nil, List.mem_singleton, Prod.mk.injEq] at hk
  obtain ⟨rfl, rfl⟩ := hk
  exact ⟨b, by simp [Arr.info], hs, fun hf => (by rw [ha] at hf; cases hf)⟩

/-- **C126** fails for masks: they are not compared. -/
theorem C126_wrong_masks {V : Type} (close : Var V → Var V → Except Err Bool) (x y : Arr V) (includeAttrs includeData : Bool) (m m' : List (Nat × Var V)) :
    isnear close { x with masks := m } { y with masks := m' } includeAttrs includeData = isnear close x y includeAttrs includeData := rfl

/-! Cases meeting the hypotheses. -/

/-- Close: same shape, and values differ by one at most. -/
def c126Close (a b : Var Int) : Except Err Bool := if a.shape ≠ b.shape then .error .dimension else .ok (decide (a.val - b.val ≤ 1 ∧ b.val - a.val ≤ 1))

example : isnear c126Close ⟨⟨[2], true, 3⟩, [(1, ⟨[2], true, 7⟩), (2, ⟨[2], true, 9⟩)], [], []⟩ ⟨⟨[2], true, 4⟩, [(2, ⟨[2], true, 8⟩), (1, ⟨[2], true, 7⟩)], [], []⟩ true true = .ok true := by decide

example : isnear c126Close ⟨⟨[2], true, 3⟩, [(1, ⟨[2], true, 7⟩)], [], []⟩ ⟨⟨[2], true, 4⟩, [(1, ⟨[2], true, 9⟩)], [], []⟩ true true = .ok false := by decide

example : isnear c126Close ⟨⟨[2], true, 3⟩, [(1, ⟨[2], false, 7⟩)], [], []⟩ ⟨⟨[2], true, 3⟩, [(1, ⟨[2], false, 90⟩)], [], []⟩ true true = .ok true :=
  C126_wrong_dtype c126Close ⟨[2], true, 3⟩ (by decide) 1 ⟨[2], false, 7⟩ ⟨[2], false, 90⟩ rfl rfl

example := C126_equivalent_partial c126Close ⟨⟨[2], true, 3⟩, [(1, ⟨[2], true, 7⟩), (2, ⟨[2], true, 9⟩)], [], []⟩ ⟨⟨[2], true, 4⟩, [(2, ⟨[2], true, 8⟩), (1, ⟨[2], true, 7⟩)], [], []⟩ true (by decide) (by decide)
  (by decide) (by
    intro a b h
    unfold c126Close at h
    split at h
    · cases h
    · rename_i hs; exact not_not.1 hs)

example : isnear c126Close ⟨⟨[2], true, 3⟩, [(1, ⟨[2], true, 7⟩), (2, ⟨[2], true, 9⟩)], [], []⟩ ⟨⟨[2], true, 4⟩, [(3, ⟨[2], true, 8⟩), (1, ⟨[2], true, 7⟩)], [], []⟩ true false = .error .notFound := by decide

example : isnear c126Close ⟨⟨[2], true, 3⟩, [(1, ⟨[2], true, 7⟩), (2, ⟨[2], true, 9⟩)], [], []⟩ ⟨⟨[2], true, 4⟩, [(2, ⟨[3], true, 8⟩), (1, ⟨[2], true, 7⟩)], [], []⟩ true false = .error .dataArray :=
  (C126_rejects c126Close ⟨⟨[2], true, 3⟩, [(1, ⟨[2], true, 7⟩), (2, ⟨[2], true, 9⟩)], [], []⟩ ⟨⟨[2], true, 4⟩, [(2, ⟨[3], true, 8⟩), (1, ⟨[2], true, 7⟩)], [], []⟩ true (by decide) [(1, ⟨[2], true, 7⟩)] [] 2 ⟨[2], true, 9⟩ rfl rfl (by
    intro k a h
    cases List.mem_singleton.1 h
    exact ⟨⟨[2], true, 7⟩, by decide, rfl, fun _ => by decide⟩)).2 ⟨[3], true, 8⟩ (by decide) (by decide)

example := C126_succeeds c126Close ⟨⟨[2], true, 3⟩, [(1, ⟨[2], true, 7⟩)], [], []⟩ ⟨⟨[2], true, 4⟩, [(1, ⟨[2], true, 9⟩)], [], []⟩ true true (by decide) (by
    intro a b h
    exact ⟨_, by unfold c126Close; rw [if_neg (fun h' => h' h)]⟩) rfl (by
    intro k a h
    cases List.mem_singleton.1 h
    exact ⟨⟨[2], true, 9⟩, by decide, rfl⟩)

end Scipp.Props
