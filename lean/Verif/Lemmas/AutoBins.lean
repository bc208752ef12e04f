import Verif.Spec.AutoBins
import Verif.Lemmas.Double
import Mathlib.Tactic.Linarith
import Mathlib.Tactic.Positivity
import Mathlib.Tactic.SplitIfs
import Mathlib.Tactic.ByContra
import Mathlib.Tactic.Set
import Mathlib.Data.List.Sort
import Mathlib.Data.List.Nodup
import Mathlib.Data.List.Perm.Subperm

namespace Scipp.AutoBins
open Numeric

variable {V : Type} [LinearOrder V]

theorem foldl_min_le (l : List V) (a : V) : l.foldl min a ≤ a ∧ ∀ x ∈ l, l.foldl min a ≤ x := by
  induction l generalizing a with
  | nil => simp
  | cons y ys ih =>
    obtain ⟨h1, h2⟩ := ih (min a y)
    refine ⟨le_trans h1 (min_le_left _ _), fun x hx => ?_⟩
    rcases List.mem_cons.1 hx with rfl | hx
    · exact le_trans h1 (min_le_right _ _)
    · exact h2 x hx

theorem foldl_min_mem (l : List V) (a : V) : l.foldl min a = a ∨ l.foldl min a ∈ l := by
  induction l generalizing a with
  | nil => simp
  | cons y ys ih =>
    rcases ih (min a y) with h | h
    · rcases min_choice a y with h2 | h2
      · left; simp only [List.foldl_cons]; rw [h, h2]
      · right; simp only [List.foldl_cons]; rw [h, h2]; exact List.mem_cons_self
    · right; exact List.mem_cons_of_mem _ h

theorem le_foldl_max (l : List V) (a : V) : a ≤ l.foldl max a ∧ ∀ x ∈ l, x ≤ l.foldl max a := by
  induction l generalizing a with
  | nil => simp
  | cons y ys ih =>
    obtain ⟨h1, h2⟩ := ih (max a y)
    refine ⟨le_trans (le_max_left _ _) h1, fun x hx => ?_⟩
    rcases List.mem_cons.1 hx with rfl | hx
    · exact le_trans (le_max_right _ _) h1
    · exact h2 x hx

theorem foldl_max_mem (l : List V) (a : V) : l.foldl max a = a ∨ l.foldl max a ∈ l := by
  induction l generalizing a with
  | nil => simp
  | cons y ys ih =>
    rcases ih (max a y) with h | h
    · rcases max_choice a y with h2 | h2
      · left; simp only [List.foldl_cons]; rw [h, h2]
      · right; simp only [List.foldl_cons]; rw [h, h2]; exact List.mem_cons_self
    · right; exact List.mem_cons_of_mem _ h

theorem minOf_le {L : Limits V} {l : List V} {x : V} (h : x ∈ l) : minOf L l ≤ x := (foldl_min_le l _).2 x h

theorem le_maxOf {L : Limits V} {l : List V} {x : V} (h : x ∈ l) : x ≤ maxOf L l := (le_foldl_max l _).2 x h

theorem minOf_mem {L : Limits V} {l : List V} (hl : InLimits L l) (hne : l ≠ []) : minOf L l ∈ l := by
  rcases foldl_min_mem l L.highest with h | h
  · obtain ⟨x, hx⟩ := List.exists_mem_of_ne_nil l hne
    have h1 := (foldl_min_le l L.highest).2 x hx
    rw [h] at h1
    have : minOf L l = x := by rw [minOf, h]; exact le_antisymm h1 (hl x hx).2
    rw [this]; exact hx
  · exact h

theorem maxOf_mem {L : Limits V} {l : List V} (hl : InLimits L l) (hne : l ≠ []) : maxOf L l ∈ l := by
  rcases foldl_max_mem l L.lowest with h | h
  · obtain ⟨x, hx⟩ := List.exists_mem_of_ne_nil l hne
    have h1 := (le_foldl_max l L.lowest).2 x hx
    rw [h] at h1
    have : maxOf L l = x := by rw [maxOf, h]; exact le_antisymm (hl x hx).1 h1
    rw [this]; exact hx
  · exact h

/-- Of an interval of edges that starts at or below `x` and ends above it, one bin contains `x`. -/
theorem inBin_of_ends {edges : List V} {x a b : V} (ha : edges.head? = some a) (hb : edges.getLast? = some b) (h1 : a ≤ x) (h2 : x < b) :
    InBin edges x := by
  induction edges generalizing a with
  | nil => simp at ha
  | cons y ys ih =>
    simp only [List.head?_cons, Option.some.injEq] at ha
    subst ha
    cases ys with
    | nil =>
      simp only [List.getLast?_singleton, Option.some.injEq] at hb
      subst hb
      exact absurd h2 (not_lt.2 h1)
    | cons z zs =>
      by_cases hz : z ≤ x
      · obtain ⟨i, c, d, h3, h4, h5⟩ := ih (a := z) rfl (by simpa [List.getLast?_cons_cons] using hb) hz
        exact ⟨i + 1, c, d, by simpa using h3, by simpa using h4, h5⟩
      · exact ⟨0, y, z, rfl, rfl, h1, not_le.1 hz⟩

theorem getLast?_cons_of {α : Type} {a b : α} {l : List α} (h : l.getLast? = some b) : (a :: l).getLast? = some b := by
  cases l with
  | nil => simp at h
  | cons c cs => simpa [List.getLast?_cons_cons] using h

/-- The minimum and maximum which the loop over the items of a dataset finds. -/
theorem rangeLoop_some {L : Limits V} {coord : Option (List V × Bool)} :
    ∀ (items : List (Option (List V))) (cs : List (List V)) (acc : V × V),
      items.mapM (coordOfArray coord) = .ok cs → (∀ c, cs.getLast? = some c → minOf L c ≤ maxOf L c) →
      ∃ M, rangeLoop L coord items (some acc) = .ok (some (cs.foldl (fun m c => min m (minOf L c)) acc.1, M)) ∧
        (cs = [] → M = acc.2) ∧ ∀ c, cs.getLast? = some c → M = maxOf L c := by
  intro items
  induction items with
  | nil =>
    intro cs acc h _
    simp only [List.mapM_nil, pure, Except.pure, Except.ok.injEq] at h
    subst h
    exact ⟨acc.2, rfl, fun _ => rfl, by simp⟩
  | cons e es ih =>
    intro cs acc h hc
    rw [List.mapM_cons] at h
    cases h1 : coordOfArray coord e with
    | error _ => simp [h1, bind, Except.bind] at h
    | ok c =>
      cases h2 : es.mapM (coordOfArray coord) with
      | error _ => simp [h1, h2, bind, Except.bind] at h
      | ok cs' =>
        simp only [h1, h2, bind, Except.bind, pure, Except.pure, Except.ok.injEq] at h
        subst h
        obtain ⟨M, h3, h4, h5⟩ := ih cs' (rangeStep L (some acc) c) h2 (fun c hc' => hc c (getLast?_cons_of hc'))
        refine ⟨M, ?_, by simp, ?_⟩
        · rw [rangeLoop, h1]
          exact h3
        · intro c' hc'
          cases cs' with
          | nil =>
            simp only [List.getLast?_singleton, Option.some.injEq] at hc'
            subst hc'
            rw [h4 rfl]
            show max (min acc.1 (minOf L c)) (maxOf L c) = _
            exact max_eq_right (le_trans (min_le_right _ _) (hc c rfl))
          | cons d ds => exact h5 c' (by simpa [List.getLast?_cons_cons] using hc')

theorem rangeLoop_none {L : Limits V} {coord : Option (List V × Bool)} {items : List (Option (List V))} {c : List V} {cs : List (List V)}
    (h : items.mapM (coordOfArray coord) = .ok (c :: cs)) (hc : ∀ c', (c :: cs).getLast? = some c' → minOf L c' ≤ maxOf L c') :
    ∃ M, rangeLoop L coord items none = .ok (some (cs.foldl (fun m c => min m (minOf L c)) (minOf L c), M)) ∧
      ∀ c', (c :: cs).getLast? = some c' → M = maxOf L c' := by
  cases items with
  | nil => simp [List.mapM_nil, pure, Except.pure] at h
  | cons e es =>
    rw [List.mapM_cons] at h
    cases h1 : coordOfArray coord e with
    | error _ => simp [h1, bind, Except.bind] at h
    | ok d =>
      cases h2 : es.mapM (coordOfArray coord) with
      | error _ => simp [h1, h2, bind, Except.bind] at h
      | ok cs' =>
        simp only [h1, h2, bind, Except.bind, pure, Except.pure, Except.ok.injEq, List.cons.injEq] at h
        obtain ⟨rfl, rfl⟩ := h
        obtain ⟨M, h3, h4, h5⟩ := rangeLoop_some es cs' (minOf L d, maxOf L d) h2 (fun c hc' => hc c (getLast?_cons_of hc'))
        refine ⟨M, ?_, ?_⟩
        · rw [rangeLoop, h1]
          exact h3
        · intro c' hc'
          cases cs' with
          | nil =>
            simp only [List.getLast?_singleton, Option.some.injEq] at hc'
            subst hc'
            exact h4 rfl
          | cons d ds => exact h5 c' (by simpa [List.getLast?_cons_cons] using hc')

theorem foldl_minOf_le {L : Limits V} (cs : List (List V)) (m : V) :
    cs.foldl (fun m c => min m (minOf L c)) m ≤ m ∧ ∀ c ∈ cs, cs.foldl (fun m c => min m (minOf L c)) m ≤ minOf L c := by
  induction cs generalizing m with
  | nil => simp
  | cons d ds ih =>
    obtain ⟨h1, h2⟩ := ih (min m (minOf L d))
    refine ⟨le_trans h1 (min_le_left _ _), fun c hc => ?_⟩
    rcases List.mem_cons.1 hc with rfl | hc
    · exact le_trans h1 (min_le_right _ _)
    · exact h2 c hc

theorem le_foldl_minOf {L : Limits V} {w : V} (cs : List (List V)) (m : V) (hm : w ≤ m) (h : ∀ c ∈ cs, w ≤ minOf L c) :
    w ≤ cs.foldl (fun m c => min m (minOf L c)) m := by
  induction cs generalizing m with
  | nil => exact hm
  | cons d ds ih =>
    exact ih _ (le_min hm (h d List.mem_cons_self)) (fun c hc => h c (List.mem_cons_of_mem _ hc))

theorem le_minOf {L : Limits V} {w : V} {c : List V} (hw : w ≤ L.highest) (h : ∀ u ∈ c, w ≤ u) : w ≤ minOf L c := by
  rcases foldl_min_mem c L.highest with h1 | h1
  · rw [minOf, h1]; exact hw
  · exact h _ h1

theorem maxOf_le {L : Limits V} {w : V} {c : List V} (hw : L.lowest ≤ w) (h : ∀ u ∈ c, u ≤ w) : maxOf L c ≤ w := by
  rcases foldl_max_mem c L.lowest with h1 | h1
  · rw [maxOf, h1]; exact hw
  · exact h _ h1

/-- What is known about the bounds found for some values, given all numbers of the object. -/
def GoodBounds (upper : V → V) (numbers values : List V) (start stop : V) : Prop :=
  (∀ v ∈ values, start ≤ v) ∧ (∀ w, (∀ u ∈ numbers, w ≤ u) → w ≤ start) ∧
    ((∃ m ∈ values, (∀ v ∈ values, v ≤ m) ∧ stop = upper m) ∨ (stop ∈ numbers ∧ ∀ v ∈ values, v < stop))

theorem bounds_plain {L : Limits V} {upper : V → V} {x : Source V} {c values : List V} (hc : getCoord L x = .ok c)
    (he : hasEdges x = false) (hup : ∀ m ∈ values, m ≤ upper m) (hne : values ≠ []) (hlim : InLimits L values)
    (h1 : ∀ v ∈ values, minOf L c ≤ v) (h2 : ∀ v ∈ values, v ≤ maxOf L c) (h3 : maxOf L c ∈ values) {numbers : List V}
    (h4 : ∀ w, (∀ u ∈ numbers, w ≤ u) → w ≤ minOf L c) :
    ∃ start stop, bounds L upper x = .ok (start, stop) ∧ GoodBounds upper numbers values start stop := by
  refine ⟨minOf L c, upper (maxOf L c), ?_, h1, h4, Or.inl ⟨_, h3, h2, rfl⟩⟩
  have : ¬ upper (maxOf L c) < minOf L c := not_lt.2 (le_trans (h1 _ h3) (hup _ h3))
  simp [bounds, hc, he, this, bind, Except.bind]

theorem bounds_edges {L : Limits V} {upper : V → V} {x : Source V} {c values : List V} (hc : getCoord L x = .ok c)
    (he : hasEdges x = true) (hne : values ≠ []) (h1 : ∀ v ∈ values, minOf L c ≤ v) (h2 : ∀ v ∈ values, v < maxOf L c) {numbers : List V}
    (h3 : maxOf L c ∈ numbers) (h4 : ∀ w, (∀ u ∈ numbers, w ≤ u) → w ≤ minOf L c) :
    ∃ start stop, bounds L upper x = .ok (start, stop) ∧ GoodBounds upper numbers values start stop := by
  refine ⟨minOf L c, maxOf L c, ?_, h1, h4, Or.inr ⟨h3, h2⟩⟩
  obtain ⟨v, hv⟩ := List.exists_mem_of_ne_nil _ hne
  have : ¬ maxOf L c < minOf L c := not_lt.2 (le_trans (h1 v hv) (le_of_lt (h2 v hv)))
  simp [bounds, hc, he, this, bind, Except.bind]

theorem mapM_coordOfArray_none (items : List (Option (List V))) (h : ∀ e ∈ items, e.isSome) :
    items.mapM (coordOfArray none) = .ok (items.map (·.getD [])) := by
  induction items with
  | nil => rfl
  | cons e es ih =>
    rw [List.mapM_cons, ih (fun e he => h e (List.mem_cons_of_mem _ he))]
    have := h e List.mem_cons_self
    cases e with
    | none => simp at this
    | some e => rfl

theorem mapM_coordOfArray_some (c : List V × Bool) (items : List (Option (List V))) :
    items.mapM (coordOfArray (some c)) = .ok (items.map (fun _ => c.1)) := by
  induction items with
  | nil => rfl
  | cons e es ih => rw [List.mapM_cons, ih]; rfl

theorem bounds_spec {L : Limits V} {upper : V → V} {x : Source V} (hreg : x.Regular) (hlim : InLimits L x.numbers)
    (hne : x.values ≠ []) (hup : ∀ m ∈ x.values, m ≤ upper m) :
    ∃ start stop, bounds L upper x = .ok (start, stop) ∧ GoodBounds upper x.numbers x.values start stop := by
  obtain ⟨v0, hv0⟩ := List.exists_mem_of_ne_nil _ hne
  cases x with
  | var values =>
    have hl : InLimits L values := hlim
    refine bounds_plain (x := .var values) (c := values) rfl rfl hup hne hl (fun v hv => minOf_le hv) (fun v hv => le_maxOf hv)
      (maxOf_mem hl hne) (fun w hw => le_minOf (le_trans (hw v0 hv0) (hl v0 hv0).2) hw)
  | array coord events =>
    cases events with
    | none =>
      cases coord with
      | none => exact absurd rfl hne
      | some c =>
        have hl : InLimits L c.1 := fun u hu => hlim u (by simp [Source.numbers, hu])
        refine bounds_plain (x := .array (some c) none) (c := c.1) rfl (hreg c rfl) hup hne hl (fun v hv => minOf_le hv)
          (fun v hv => le_maxOf hv) (maxOf_mem hl hne) (fun w hw => ?_)
        have hw' : ∀ u ∈ c.1, w ≤ u := fun u hu => hw u (by simp [Source.numbers, hu])
        exact le_minOf (le_trans (hw' v0 hv0) (hl v0 hv0).2) hw'
    | some ev =>
      cases coord with
      | none =>
        have hl : InLimits L ev := fun u hu => hlim u (by simp [Source.numbers, hu])
        refine bounds_plain (x := .array none (some ev)) (c := ev) rfl rfl hup hne hl (fun v hv => minOf_le hv)
          (fun v hv => le_maxOf hv) (maxOf_mem hl hne) (fun w hw => ?_)
        have hw' : ∀ u ∈ ev, w ≤ u := fun u hu => hw u (by simp [Source.numbers, hu])
        exact le_minOf (le_trans (hw' v0 hv0) (hl v0 hv0).2) hw'
      | some c =>
        obtain ⟨he, hin⟩ := hreg c rfl
        obtain ⟨⟨a0, ha0, _⟩, _⟩ := hin v0 hv0
        have hl : InLimits L c.1 := fun u hu => hlim u (by simp [Source.numbers, hu])
        refine bounds_edges (x := .array (some c) (some ev)) (c := c.1) rfl he hne ?_ ?_ ?_ (fun w hw => ?_)
        · intro v hv
          obtain ⟨⟨a, ha, hav⟩, _⟩ := hin v hv
          exact le_trans (minOf_le ha) hav
        · intro v hv
          obtain ⟨_, b, hb, hbv⟩ := hin v hv
          exact lt_of_lt_of_le hbv (le_maxOf hb)
        · have := maxOf_mem hl (List.ne_nil_of_mem ha0)
          simp [Source.numbers, this]
        · have hw' : ∀ u ∈ c.1, w ≤ u := fun u hu => hw u (by simp [Source.numbers, hu])
          exact le_minOf (le_trans (hw' a0 ha0) (hl a0 ha0).2) hw'
  | dataset coord items =>
    cases coord with
    | none =>
      obtain ⟨hsome, last, hlast, hmax⟩ := hreg
      have hmem : ∀ v, v ∈ (Source.dataset none items).values ↔ ∃ c ∈ items.map (·.getD []), v ∈ c := by
        intro v
        simp only [Source.values, List.mem_flatMap, List.mem_map]
        constructor
        · rintro ⟨e, he, hv⟩
          cases e with
          | none => simp [arrayValues] at hv
          | some e => exact ⟨e, ⟨_, he, rfl⟩, hv⟩
        · rintro ⟨c, ⟨e, he, rfl⟩, hv⟩
          cases e with
          | none => simp at hv
          | some e => exact ⟨_, he, hv⟩
      have hnum : ∀ v, v ∈ (Source.dataset none items).numbers ↔ v ∈ (Source.dataset none items).values := by
        intro v
        rw [hmem]
        simp [Source.numbers]
      have hmapM := mapM_coordOfArray_none items hsome
      have hl : InLimits L last := fun u hu => hlim u ((hnum u).2 ((hmem u).2 ⟨last, List.mem_map.2 ⟨some last, List.mem_of_getLast? hlast, rfl⟩, hu⟩))
      obtain ⟨y0, hy0, _⟩ := hmax v0 hv0
      have hlast' : (items.map (·.getD [])).getLast? = some last := by simp [List.getLast?_map, hlast]
      cases hcs : items.map (·.getD []) with
      | nil => rw [hcs] at hlast'; simp at hlast'
      | cons c cs =>
        rw [hcs] at hmapM hlast' hmem
        obtain ⟨M, h1, h2⟩ := rangeLoop_none (L := L) hmapM (by
          intro c' hc'
          rw [hlast'] at hc'
          cases hc'
          exact le_trans (minOf_le hy0) (le_maxOf hy0))
        have hM := h2 last hlast'
        set m := cs.foldl (fun m c => min m (minOf L c)) (minOf L c) with hm
        have hg : getCoord L (.dataset none items) = .ok [m, M] := by
          rw [getCoord, h1]; rfl
        have hMmem : M ∈ (Source.dataset none items).values := by
          rw [hmem, hM]; exact ⟨last, List.mem_of_getLast? hlast', maxOf_mem hl (List.ne_nil_of_mem hy0)⟩
        have hlow : ∀ v ∈ (Source.dataset none items).values, m ≤ v := by
          intro v hv
          obtain ⟨c', hc', hv⟩ := (hmem v).1 hv
          refine le_trans ?_ (minOf_le (L := L) hv)
          rcases List.mem_cons.1 hc' with rfl | hc'
          · exact (foldl_minOf_le cs _).1
          · exact (foldl_minOf_le cs _).2 c' hc'
        have hlv : InLimits L (Source.dataset none items).values := fun u hu => hlim u ((hnum u).2 hu)
        have hmin : minOf L [m, M] = m := by
          have h5 := hlow M hMmem
          have h6 := (hlv M hMmem).2
          show min (min L.highest m) M = m
          rw [min_eq_right (le_trans h5 h6), min_eq_left h5]
        have hmax' : maxOf L [m, M] = M := by
          show max (max L.lowest m) M = M
          exact max_eq_right (max_le (hlv M hMmem).1 (hlow M hMmem))
        refine bounds_plain (c := [m, M]) hg rfl hup hne hlv ?_ ?_ ?_ ?_
        · rw [hmin]; exact hlow
        · rw [hmax']
          intro v hv
          obtain ⟨y, hy, hvy⟩ := hmax v hv
          rw [hM]
          exact le_trans hvy (le_maxOf hy)
        · rw [hmax']; exact hMmem
        · intro w hw
          rw [hmin]
          have hwh : w ≤ L.highest := le_trans (hw v0 ((hnum v0).2 hv0)) (hlv v0 hv0).2
          have hall : ∀ c' ∈ c :: cs, w ≤ minOf L c' := fun c' hc' =>
            le_minOf hwh (fun u hu => hw u ((hnum u).2 ((hmem u).2 ⟨c', hc', hu⟩)))
          exact le_foldl_minOf cs _ (hall c List.mem_cons_self) (fun c' hc' => hall c' (List.mem_cons_of_mem _ hc'))
    | some c =>
      have hitem : ∀ v ∈ (Source.dataset (some c) items).values, (c.2 = true) ∧ (∃ a ∈ c.1, a ≤ v) ∧ ∃ b ∈ c.1, v < b := by
        intro v hv
        simp only [Source.values, List.mem_flatMap] at hv
        obtain ⟨e, he, hv⟩ := hv
        obtain ⟨ev, rfl, hw⟩ := hreg e he
        obtain ⟨h1, h2⟩ := hw c rfl
        exact ⟨h1, h2 v hv⟩
      obtain ⟨he, ⟨a0, ha0, _⟩, _⟩ := hitem v0 hv0
      have hl : InLimits L c.1 := fun u hu => hlim u (by simp [Source.numbers, hu])
      have hle : minOf L c.1 ≤ maxOf L c.1 := le_trans (minOf_le ha0) (le_maxOf ha0)
      have hmapM := mapM_coordOfArray_some c items
      cases hitems : items with
      | nil => rw [hitems] at hv0; simp [Source.values] at hv0
      | cons e es =>
        rw [hitems, List.map_cons] at hmapM
        have hall : ∀ c' ∈ c.1 :: es.map (fun _ => c.1), c' = c.1 := by
          intro c' hc'
          rcases List.mem_cons.1 hc' with rfl | hc'
          · rfl
          · obtain ⟨_, _, rfl⟩ := List.mem_map.1 hc'; rfl
        obtain ⟨M, h1, h2⟩ := rangeLoop_none (L := L) hmapM (by
          intro c' hc'
          rw [hall c' (List.mem_of_getLast? hc')]
          exact hle)
        rw [← hitems] at h1
        obtain ⟨cl, hcl⟩ : ∃ cl, (c.1 :: es.map (fun _ => c.1)).getLast? = some cl := by
          cases h : (c.1 :: es.map (fun _ => c.1)).getLast? with
          | none => simp at h
          | some cl => exact ⟨cl, rfl⟩
        have hM := h2 cl hcl
        rw [hall cl (List.mem_of_getLast? hcl)] at hM
        set m := (es.map (fun _ => c.1)).foldl (fun m c => min m (minOf L c)) (minOf L c.1) with hm
        have hmeq : m = minOf L c.1 := by
          refine le_antisymm (foldl_minOf_le _ _).1 (le_foldl_minOf _ _ le_rfl ?_)
          intro c' hc'
          rw [hall c' (List.mem_cons_of_mem _ hc')]
        have hg : getCoord L (.dataset (some c) items) = .ok [m, M] := by
          rw [getCoord, h1]; rfl
        rw [hmeq, hM] at hg
        have hmax' : maxOf L [minOf L c.1, maxOf L c.1] = maxOf L c.1 := by
          show max (max L.lowest _) _ = _
          exact max_eq_right (max_le (hl _ (maxOf_mem hl (List.ne_nil_of_mem ha0))).1 hle)
        have hmin : minOf L [minOf L c.1, maxOf L c.1] = minOf L c.1 := by
          show min (min L.highest _) _ = _
          rw [min_eq_right (hl _ (minOf_mem hl (List.ne_nil_of_mem ha0))).2, min_eq_left hle]
        rw [← hitems]
        refine bounds_edges hg he hne ?_ ?_ ?_ ?_
        · rw [hmin]
          intro v hv
          obtain ⟨_, ⟨a, ha, hav⟩, _⟩ := hitem v hv
          exact le_trans (minOf_le ha) hav
        · rw [hmax']
          intro v hv
          obtain ⟨_, _, b, hb, hbv⟩ := hitem v hv
          exact lt_of_lt_of_le hbv (le_maxOf hb)
        · rw [hmax']
          have := maxOf_mem hl (List.ne_nil_of_mem ha0)
          simp [Source.numbers, this]
        · rw [hmin]
          intro w hw
          have hw' : ∀ u ∈ c.1, w ≤ u := fun u hu => hw u (by simp [Source.numbers, hu])
          exact le_minOf (le_trans (hw' a0 ha0) (hl a0 ha0).2) hw'

end Scipp.AutoBins
