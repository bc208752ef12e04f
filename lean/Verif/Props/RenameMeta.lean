import Verif.Model.RenameMeta
import Mathlib.Data.List.Basic
import Mathlib.Data.List.Nodup
import Mathlib.Data.List.Perm.Basic
/-!
C135: renaming of coords with their dims.
-/
namespace Scipp.Props
open Scipp Scipp.RenameMeta

/-- The new name of `k`, all names being replaced at once. -/
def c135New (ren : List (Nat × Nat)) (k : Nat) : Nat := (ren.lookup k).getD k

/-- A dict with all names replaced at once. -/
def c135Renamed {V : Type} (ren : List (Nat × Nat)) (l : List (Nat × V)) : List (Nat × V) := l.map (fun p => (c135New ren p.1, p.2))

/-- All names of metadata. -/
def c135Names {V : Type} (m : Metadata V) : List Nat := names m.coords ++ names m.attrs ++ (m.events.elim [] (fun e => names e.1 ++ names e.2))

/-- No name twice in a dict. -/
def c135Valid {V : Type} (m : Metadata V) : Prop := (names m.coords).Nodup ∧ (names m.attrs).Nodup ∧ ∀ e, m.events = some e → (names e.1).Nodup ∧ (names e.2).Nodup

theorem c135_lookup_none {V : Type} (l : List (Nat × V)) (k : Nat) (h : k ∉ names l) : l.lookup k = none := by
  induction l with
  | nil => rfl
  | cons p l ih =>
    simp only [names, List.map_cons, List.mem_cons, not_or] at h
    have hb : (k == p.1) = false := by simpa using h.1
    simp only [List.lookup, hb]
    exact ih h.2

theorem c135_map_id {V : Type} (l : List (Nat × V)) (old new : Nat) (h : old ∉ names l) : l.map (fun p => (if p.1 = old then new else p.1, p.2)) = l := by
  induction l with
  | nil => rfl
  | cons p l ih =>
    simp only [names, List.map_cons, List.mem_cons, not_or] at h
    rw [List.map_cons, ih h.2, if_neg (fun e => h.1 e.symm)]

/-- Moving one entry: as if its name were replaced. -/
theorem move_perm {V : Type} (old new : Nat) (l : List (Nat × V)) (hn : (names l).Nodup) (hnew : new ∉ names l) :
    (move old new l).Perm (l.map (fun p => (if p.1 = old then new else p.1, p.2))) := by
  have hset : ∀ v, setItem new v (l.filter (fun p => p.1 ≠ old)) = l.filter (fun p => p.1 ≠ old) ++ [(new, v)] := by
    intro v
    unfold setItem
    rw [if_neg]
    intro h
    obtain ⟨p, hp, he⟩ := List.mem_map.1 h
    exact hnew (List.mem_map.2 ⟨p, (List.mem_filter.1 hp).1, he⟩)
  by_cases ho : old ∈ names l
  · have key : ∀ l : List (Nat × V), (names l).Nodup → old ∈ names l → ∃ v, l.lookup old = some v ∧ (l.filter (fun p => p.1 ≠ old) ++ [(new, v)]).Perm (l.map (fun p => (if p.1 = old then new else p.1, p.2))) := by
      intro l
      induction l with
      | nil => intro _ h; simp [names] at h
      | cons p l ih =>
        intro hn ho
        obtain ⟨k, v⟩ := p
        simp only [names, List.map_cons, List.nodup_cons] at hn
        by_cases hk : k = old
        · subst hk
          refine ⟨v, by simp [List.lookup], ?_⟩
          have hf : l.filter (fun p => p.1 ≠ k) = l := by
            rw [List.filter_eq_self]
            intro q hq
            simp only [ne_eq, decide_not, Bool.not_eq_eq_eq_not, Bool.not_true, decide_eq_false_iff_not]
            exact fun e => hn.1 (List.mem_map.2 ⟨q, hq, e⟩)
          rw [List.filter_cons_of_neg (by simp), hf, List.map_cons, c135_map_id l k new hn.1, if_pos rfl]
          exact List.perm_append_singleton (new, v) l
        · have ho' : old ∈ names l := by
            simp only [names, List.map_cons, List.mem_cons] at ho
            rcases ho with h | h
            · exact absurd h.symm hk
            · exact h
          obtain ⟨w, h1, h2⟩ := ih hn.2 ho'
          have hb : (old == k) = false := by simpa using fun e : old = k => hk e.symm
          refine ⟨w, by simp only [List.lookup, hb]; exact h1, ?_⟩
          rw [List.filter_cons_of_pos (by simpa using hk), List.map_cons, if_neg hk, List.cons_append]
          exact h2.cons _
    obtain ⟨v, h1, h2⟩ := key l hn ho
    unfold move
    rw [h1]
    simp only
    rw [hset v]
    exact h2
  · unfold move
    rw [c135_lookup_none l old ho]
    simp only
    rw [c135_map_id l old new ho]

theorem c135_compose {V : Type} (old new : Nat) (ren : List (Nat × Nat)) (l l' : List (Nat × V)) (h : l'.Perm (l.map (fun p => (if p.1 = old then new else p.1, p.2)))) (hn : new ∉ names ren) :
    (c135Renamed ren l').Perm (c135Renamed ((old, new) :: ren) l) := by
  unfold c135Renamed
  refine (h.map _).trans ?_
  rw [List.map_map]
  apply List.Perm.of_eq
  apply List.map_congr_left
  intro p _
  simp only [Function.comp, c135New]
  by_cases hk : p.1 = old
  · rw [if_pos hk, c135_lookup_none ren new hn, hk]
    simp [List.lookup]
  · have hb : (p.1 == old) = false := by simpa using hk
    rw [if_neg hk]
    simp only [List.lookup, hb]

/-- Names after moving are old ones or the new one, none twice. -/
theorem move_names {V : Type} (old new : Nat) (l : List (Nat × V)) (hn : (names l).Nodup) (hnew : new ∉ names l) :
    (names (move old new l)).Nodup ∧ ∀ k ∈ names (move old new l), k = new ∨ k ∈ names l := by
  have hp := (move_perm old new l hn hnew).map Prod.fst
  rw [List.map_map] at hp
  have he : (Prod.fst ∘ fun p : Nat × V => (if p.1 = old then new else p.1, p.2)) = (fun k => if k = old then new else k) ∘ Prod.fst := rfl
  rw [he, ← List.map_map] at hp
  constructor
  · refine hp.nodup_iff.2 (List.Nodup.map_on ?_ hn)
    intro x hx y hy hxy
    by_cases h1 : x = old <;> by_cases h2 : y = old
    · rw [h1, h2]
    · rw [if_pos h1, if_neg h2] at hxy
      exact absurd (hxy ▸ hy) hnew
    · rw [if_neg h1, if_pos h2] at hxy
      exact absurd (hxy ▸ hx) hnew
    · rwa [if_neg h1, if_neg h2] at hxy
  · intro k hk
    obtain ⟨x, hx, hxk⟩ := List.mem_map.1 (hp.mem_iff.1 hk)
    by_cases h1 : x = old
    · rw [if_pos h1] at hxk
      exact Or.inl hxk.symm
    · rw [if_neg h1] at hxk
      exact Or.inr (hxk ▸ hx)

/-- What `rename` should be: every dict with all names replaced at once, in any order of entries. -/
def c135Spec {V : Type} (ren : List (Nat × Nat)) (m r : Metadata V) : Prop :=
  r.coords.Perm (c135Renamed ren m.coords) ∧ r.attrs.Perm (c135Renamed ren m.attrs) ∧ (r.events = none ↔ m.events = none) ∧
  ∀ e f, m.events = some e → r.events = some f → f.1.Perm (c135Renamed ren e.1) ∧ f.2.Perm (c135Renamed ren e.2)

theorem c135_renamed_nil {V : Type} (l : List (Nat × V)) : c135Renamed [] l = l := by
  unfold c135Renamed
  conv => rhs; rw [← List.map_id l]
  rfl

/-- **C135** (partial: new names are used nowhere, neither in metadata including that of events, nor as old names) Coords and attrs, also those of events, are renamed like the dims: each keeps its value, and all names are replaced at once. -/
theorem C135_renamed_partial {V : Type} (ren : List (Nat × Nat)) : ∀ (m : Metadata V), c135Valid m → (ren.map Prod.snd).Nodup → (∀ p ∈ ren, p.2 ∉ c135Names m ∧ p.2 ∉ ren.map Prod.fst) →
    ∃ r, rename m ren = .ok r ∧ c135Spec ren m r := by
  induction ren with
  | nil =>
    intro m _ _ _
    refine ⟨m, rfl, ?_, ?_, Iff.rfl, ?_⟩
    · rw [c135_renamed_nil]
    · rw [c135_renamed_nil]
    · intro e f he hf
      rw [he] at hf
      cases hf
      rw [c135_renamed_nil, c135_renamed_nil]
      exact ⟨List.Perm.refl _, List.Perm.refl _⟩
  | cons p ren ih =>
    intro m hv hs hf
    obtain ⟨old, new⟩ := p
    obtain ⟨v1, v2, v3⟩ := hv
    obtain ⟨coords, attrs, events⟩ := m
    simp only at v1 v2 v3
    have hnew := hf (old, new) List.mem_cons_self
    simp only [c135Names, List.mem_append, not_or] at hnew
    obtain ⟨⟨⟨n1, n2⟩, n3⟩, n4⟩ := hnew
    have n5 : new ∉ names ren := fun h => n4 (by rw [List.map_cons]; exact List.mem_cons_of_mem _ h)
    have n6 : ∀ e, events = some e → new ∉ names e.1 ∧ new ∉ names e.2 := by
      intro e he
      rw [he] at n3
      simpa [not_or] using n3
    simp only [List.map_cons, List.nodup_cons] at hs
    have hne : ∀ p ∈ ren, p.2 ≠ new := fun p hp e => hs.1 (List.mem_map.2 ⟨p, hp, e⟩)
    have hstep : step ⟨coords, attrs, events⟩ old new = .ok ⟨move old new coords, move old new attrs, events.map (fun e => (move old new e.1, move old new e.2))⟩ := by
      unfold step
      rw [if_neg (by rintro (h | h); exacts [n1 h, n2 h])]
    obtain ⟨a1, a2⟩ := move_names old new coords v1 n1
    obtain ⟨b1, b2⟩ := move_names old new attrs v2 n2
    obtain ⟨r, hr, s1, s2, s3, s4⟩ := ih ⟨move old new coords, move old new attrs, events.map (fun e => (move old new e.1, move old new e.2))⟩
      (by
        refine ⟨a1, b1, fun e he => ?_⟩
        simp only at he
        obtain ⟨e0, he0, rfl⟩ := Option.map_eq_some_iff.1 he
        exact ⟨(move_names old new e0.1 (v3 e0 he0).1 (n6 e0 he0).1).1, (move_names old new e0.2 (v3 e0 he0).2 (n6 e0 he0).2).1⟩)
      hs.2
      (by
        intro p hp
        obtain ⟨f1, f2⟩ := hf p (List.mem_cons_of_mem _ hp)
        refine ⟨fun h => ?_, fun h => f2 (by rw [List.map_cons]; exact List.mem_cons_of_mem _ h)⟩
        simp only [c135Names, List.mem_append, not_or] at h f1
        obtain ⟨⟨g1, g2⟩, g3⟩ := f1
        rcases h with (h | h) | h
        · rcases a2 _ h with e | e
          · exact hne p hp e
          · exact g1 e
        · rcases b2 _ h with e | e
          · exact hne p hp e
          · exact g2 e
        · cases events with
          | none => simp at h
          | some e0 =>
            simp only [Option.map_some, Option.elim, List.mem_append, not_or] at h g3
            rcases h with h | h
            · rcases (move_names old new e0.1 (v3 e0 rfl).1 (n6 e0 rfl).1).2 _ h with e | e
              · exact hne p hp e
              · exact g3.1 e
            · rcases (move_names old new e0.2 (v3 e0 rfl).2 (n6 e0 rfl).2).2 _ h with e | e
              · exact hne p hp e
              · exact g3.2 e)
    refine ⟨r, ?_, ?_, ?_, ?_, ?_⟩
    · rw [rename, hstep]
      exact hr
    · exact s1.trans (c135_compose old new ren _ _ (move_perm old new coords v1 n1) n5)
    · exact s2.trans (c135_compose old new ren _ _ (move_perm old new attrs v2 n2) n5)
    · rw [s3]
      simp
    · intro e f he hf'
      simp only at he
      subst he
      obtain ⟨t1, t2⟩ := s4 (move old new e.1, move old new e.2) f rfl hf'
      exact ⟨t1.trans (c135_compose old new ren _ _ (move_perm old new e.1 (v3 e rfl).1 (n6 e rfl).1) n5),
        t2.trans (c135_compose old new ren _ _ (move_perm old new e.2 (v3 e rfl).2 (n6 e rfl).2) n5)⟩

/-- **C135** A new name which a coord or attr has is rejected, for the first pair. -/
theorem C135_rejects {V : Type} (m : Metadata V) (old new : Nat) (ren : List (Nat × Nat)) (h : new ∈ names m.coords ∨ new ∈ names m.attrs) :
    rename m ((old, new) :: ren) = .error .invalidArgument := by
  rw [rename, step, if_pos h]

/-! Cases: x, y, z, t are 1, 2, 3, 4. -/

def c135m : Metadata Nat := ⟨[(1, 10), (2, 20), (7, 70)], [(8, 80)], some ([(1, 11), (4, 44)], [])⟩

theorem c135_valid : c135Valid c135m := by
  refine ⟨by decide, by decide, fun e he => ?_⟩
  cases he
  exact ⟨by decide, by decide⟩

example := C135_renamed_partial [(1, 5), (2, 6)] c135m c135_valid (by decide) (by decide)

example : rename c135m [(1, 5), (2, 6)] = .ok ⟨[(7, 70), (5, 10), (6, 20)], [(8, 80)], some ([(4, 44), (5, 11)], [])⟩ := by decide

example := C135_rejects c135m 1 7 [(2, 6)] (Or.inl (by decide))

/-- **C135** fails if a new name is also an old one: renaming x to y and y to z, with a coord for x only, makes it z although its dim is now y. -/
theorem C135_wrong_chain : rename (⟨[(1, 10)], [], none⟩ : Metadata Nat) [(1, 2), (2, 3)] = .ok ⟨[(3, 10)], [], none⟩ ∧ c135Renamed [(1, 2), (2, 3)] [(1, 10)] = [(2, 10)] := by decide

/-- **C135** Whether it succeeds depends on the order of entries: renaming y to z first succeeds, x to y first fails. -/
theorem C135_wrong_order : rename (⟨[(1, 10), (2, 20)], [], none⟩ : Metadata Nat) [(2, 3), (1, 2)] = .ok ⟨[(3, 20), (2, 10)], [], none⟩ ∧ rename (⟨[(1, 10), (2, 20)], [], none⟩ : Metadata Nat) [(1, 2), (2, 3)] = .error .invalidArgument := by decide

/-- **C135** fails for binned data: a coord of events with the new name is replaced without an error. -/
theorem C135_wrong_events : rename (⟨[(1, 10)], [], some ([(1, 11), (4, 44)], [])⟩ : Metadata Nat) [(1, 4)] = .ok ⟨[(4, 10)], [], some ([(4, 11)], [])⟩ := by decide

end Scipp.Props
