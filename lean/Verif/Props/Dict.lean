import Verif.Lemmas.Dict
/-!
Property C16: dictionaries are insertion-ordered maps.
-/
namespace Scipp.Props
open Scipp Spec
variable {K V : Type} [DecidableEq K]

/-- **C16**: for every history of operations, no undefined behaviour is encountered and the resulting dict
gives for every key the value last assigned (`NotFoundError` if there is none), contains exactly the keys
present, each once, and iteration yields every present key with its value, ordered by the time since
when the key is present. -/
theorem C16_dict (ops : List (DictOp K V)) : ∃ d, DictOp.run ops = .ok d ∧
    (∀ k, d.at' k = match lastValue k ops with | some v => .ok v | none => .error .notFound) ∧
    (∀ k, d.contains k = (lastValue k ops).isSome) ∧
    d.keys.Nodup ∧
    (d.items.map Prod.fst = d.keys) ∧
    (∀ k v, (k, v) ∈ d.items ↔ lastValue k ops = some v) ∧
    (d.items.Pairwise fun a b => ∃ s t, presentSince a.1 ops = some s ∧ presentSince b.1 ops = some t ∧ s < t) := by
  obtain ⟨d, hd, h⟩ := dictInv_run ops
  have hfst : d.items.map Prod.fst = d.keys := by
    rw [Dict.items, List.map_fst_zip]; have := h.len; omega
  have hsome : ∀ k, k ∈ d.keys ↔ (lastValue k ops).isSome := by
    intro k
    rw [← h.lookup k]
    have := h.len
    constructor
    · intro hk
      have hne : Dict.findIndex k d.keys ≠ d.keys.length := fun e => Dict.findIndex_eq_length.mp e hk
      have := Dict.findIndex_le k d.keys
      rw [List.getElem?_eq_getElem (by omega)]; rfl
    · intro hs
      by_contra hk
      rw [Dict.findIndex_eq_length.mpr hk, List.getElem?_eq_none (by omega)] at hs
      simp at hs
  refine ⟨d, hd, ?_, ?_, h.nodup, hfst, ?_, ?_⟩
  · intro k
    by_cases hk : k ∈ d.keys
    · obtain ⟨v, hv⟩ := Option.isSome_iff_exists.mp ((hsome k).mp hk)
      have hne : Dict.findIndex k d.keys ≠ d.keys.length := fun e => Dict.findIndex_eq_length.mp e hk
      have hl := h.lookup k
      rw [hv] at hl
      simp [Dict.at', Dict.expectFindIndex, hne, bind, Except.bind, hl, hv]
    · have hn : lastValue k ops = none := by
        cases hv : lastValue k ops with
        | none => rfl
        | some v => exact absurd ((hsome k).mpr (by simp [hv])) hk
      simp [Dict.at', Dict.expectFindIndex, Dict.findIndex_eq_length.mpr hk, bind, Except.bind, hn]
  · intro k
    rw [Bool.eq_iff_iff, ← hsome k, Dict.contains]
    simp [Dict.findIndex_eq_length]
  · intro k v
    rw [← h.lookup k, Dict.items]
    constructor
    · intro hm
      obtain ⟨i, hi⟩ := List.getElem?_of_mem hm
      obtain ⟨h1, h2⟩ := List.getElem?_zip_eq_some.mp hi
      have hk : k ∈ d.keys := List.mem_of_getElem? h1
      have h3 := Dict.getElem_findIndex hk
      have hlt : Dict.findIndex k d.keys < d.keys.length := by
        by_contra hc
        rw [List.getElem?_eq_none (by omega)] at h3; simp at h3
      have hlt2 : i < d.keys.length := by
        by_contra hc
        rw [List.getElem?_eq_none (by omega)] at h1; simp at h1
      have : Dict.findIndex k d.keys = i := by
        rw [List.getElem?_eq_getElem hlt] at h3
        rw [List.getElem?_eq_getElem hlt2] at h1
        exact (List.Nodup.getElem_inj_iff h.nodup).mp ((Option.some.inj h3).trans (Option.some.inj h1).symm)
      rw [this]; exact h2
    · intro hv
      have hk : k ∈ d.keys := (hsome k).mpr (by rw [← h.lookup k, hv]; rfl)
      exact List.mem_of_getElem? (List.getElem?_zip_eq_some.mpr ⟨Dict.getElem_findIndex hk, hv⟩)
  · have hp : (d.items.map Prod.fst).Pairwise
        (fun a b => ∀ s t, presentSince a ops = some s → presentSince b ops = some t → s < t) := by
      rw [hfst]; exact h.order
    refine (List.pairwise_map.mp hp).imp_of_mem ?_
    intro a b ha hb hab
    have hk : ∀ x ∈ d.items, x.1 ∈ d.keys := fun x hx => by rw [← hfst]; exact List.mem_map_of_mem hx
    obtain ⟨s, hs⟩ := Option.isSome_iff_exists.mp ((h.since a.1).mpr (hk a ha))
    obtain ⟨t, ht⟩ := Option.isSome_iff_exists.mp ((h.since b.1).mpr (hk b hb))
    exact ⟨s, t, hs, ht, hab s t hs ht⟩

example := C16_dict [.insertOrAssign "b" 1, .insertOrAssign "a" 2, .erase "b", .insertOrAssign "b" 3]

/-- **C16** (extract): on a dict reached by any history, `extract` returns the value last assigned
and leaves the dict of the history followed by `erase`; without such a value it throws `NotFoundError`. -/
theorem C16_extract (ops : List (DictOp K V)) (k : K) (d : Dict K V) (hd : DictOp.run ops = .ok d) :
    match lastValue k ops with
    | none => d.extract k = .error .notFound
    | some v => ∃ d', d.extract k = .ok (v, d') ∧ DictOp.run (ops ++ [.erase k]) = .ok d' := by
  obtain ⟨d0, hd0, h⟩ := dictInv_run ops
  rw [hd0] at hd
  obtain rfl : d0 = d := Except.ok.inj hd
  have hlk := h.lookup k
  by_cases hk : k ∈ d0.keys
  · have hne : Dict.findIndex k d0.keys ≠ d0.keys.length := fun e => Dict.findIndex_eq_length.mp e hk
    have hlt : Dict.findIndex k d0.keys < d0.values.length := by
      have := Dict.findIndex_le k d0.keys
      have := h.len
      omega
    rw [List.getElem?_eq_getElem hlt] at hlk
    rw [← hlk]
    have he : d0.extract k = .ok (d0.values[Dict.findIndex k d0.keys],
        ⟨d0.keys.eraseIdx (Dict.findIndex k d0.keys), d0.values.eraseIdx (Dict.findIndex k d0.keys)⟩) := by
      simp [Dict.extract, Dict.expectFindIndex, hne, hlt, bind, Except.bind]
    refine ⟨_, he, ?_⟩
    simp only [DictOp.run] at hd0 ⊢
    rw [List.foldlM_append, hd0]
    simp [bind, Except.bind, pure, Except.pure, DictOp.apply, Dict.erase, he]
  · have heq := Dict.findIndex_eq_length.mpr hk
    rw [heq, h.len, List.getElem?_eq_none (by omega)] at hlk
    rw [← hlk]
    simp [Dict.extract, Dict.expectFindIndex, heq, bind, Except.bind]

example := C16_extract [.insertOrAssign "b" 1, .insertOrAssign "a" 2] "b" ⟨["b", "a"], [1, 2]⟩ (by rfl)

/-- **C16** (initializer): construction from a list of pairs fails with `invalid_argument` exactly if a key
occurs twice, and otherwise gives the same dict as inserting the pairs one by one. -/
theorem C16_initializer (items : List (K × V)) :
    ((items.map Prod.fst).Nodup → ∃ d, Dict.ofList items = .ok d ∧
      DictOp.run (items.map fun x => .insertOrAssign x.1 x.2) = .ok d ∧ d.items = items) ∧
    (¬ (items.map Prod.fst).Nodup → Dict.ofList items = .error .invalidArgument) := by
  have key : ∀ (rest : List (K × V)) (d : Dict K V), d.keys.length = d.values.length → d.keys.Nodup →
      ((d.keys ++ rest.map Prod.fst).Nodup → Dict.ofListAux d rest =
        .ok ⟨d.keys ++ rest.map Prod.fst, d.values ++ rest.map Prod.snd⟩ ∧
        List.foldlM DictOp.apply d (rest.map fun x => DictOp.insertOrAssign x.1 x.2) =
        .ok ⟨d.keys ++ rest.map Prod.fst, d.values ++ rest.map Prod.snd⟩) ∧
      (¬ (d.keys ++ rest.map Prod.fst).Nodup → Dict.ofListAux d rest = .error .invalidArgument) := by
    intro rest
    induction rest with
    | nil =>
      intro d hl hn
      simp [Dict.ofListAux, hn, pure, Except.pure]
    | cons x rest ih =>
      intro d hl hn
      obtain ⟨k, v⟩ := x
      by_cases hk : k ∈ d.keys
      · have hc : d.contains k = true := by
          simp [Dict.contains, Dict.findIndex_eq_length, hk]
        refine ⟨?_, ?_⟩
        · intro h
          exact absurd rfl ((List.nodup_append.mp h).2.2 k hk k (by simp))
        · intro _
          simp [Dict.ofListAux, hc]
      · have hc : d.contains k = false := by
          simp [Dict.contains, Dict.findIndex_eq_length, hk]
        have hi : d.insertOrAssign k v = .ok ⟨d.keys ++ [k], d.values ++ [v]⟩ := by
          simp [Dict.insertOrAssign, Dict.findIndex_eq_length.mpr hk]
        have := ih ⟨d.keys ++ [k], d.values ++ [v]⟩ (by simpa using hl) (by
          exact List.nodup_append.mpr ⟨hn, by simp, by
            intro a ha b hb; simp at hb; subst hb; intro e; subst e; exact hk ha⟩)
        simp only [List.append_assoc, List.cons_append, List.nil_append] at this
        simp only [List.map_cons, Dict.ofListAux, hc, hi, bind, Except.bind, Bool.false_eq_true, if_false,
          List.foldlM_cons, DictOp.apply]
        exact this
  obtain ⟨h1, h2⟩ := key items Dict.empty rfl List.nodup_nil
  simp only [Dict.empty, List.nil_append] at h1 h2
  refine ⟨?_, h2⟩
  intro hn
  obtain ⟨h3, h4⟩ := h1 hn
  exact ⟨_, h3, h4, by rw [Dict.items]; exact (List.zip_of_prod rfl rfl).symm⟩

example := (C16_initializer [("b", 1), ("a", 2), ("c", 1)]).1 (by decide)

/-- Concrete history: `b` is removed and inserted again, hence now after `a`; `a` keeps its place when assigned. -/
example : (DictOp.run [.insertOrAssign "b" 1, .insertOrAssign "a" 2, .erase "b", .erase "z", .insertOrAssign "b" 3,
    .insertOrAssign "a" 4]).toOption.map Dict.items = some [("a", 4), ("b", 3)] := by decide

example : Dict.ofList [("a", 1), ("b", 2), ("a", 3)] = .error .invalidArgument := by decide

end Scipp.Props
