import Verif.Spec.PyDict
import Verif.Lemmas.Dict
import Mathlib.Data.List.Basic
import Mathlib.Data.List.Nodup

/-!
C94: the dicts of coords and masks behave like Python's `dict`.
-/

namespace Scipp.Props

open Scipp Scipp.PyDict

variable {K V : Type} [DecidableEq K]

private theorem pd_values (k : K) (l : List (K × V)) :
    (l.map Prod.snd)[Dict.findIndex k (l.map Prod.fst)]? = l.lookup k := by
  induction l with
  | nil => rfl
  | cons p ps ih =>
    simp only [List.map_cons, Dict.findIndex]
    by_cases h : p.1 = k
    · subst h; simp [List.lookup]
    · have h2 : (k == p.1) = false := by simpa using fun e => h e.symm
      simp only [h, if_false, List.lookup, h2, List.getElem?_cons_succ]
      exact ih

private theorem pd_mem (k : K) (l : List (K × V)) :
    k ∈ l.map Prod.fst ↔ ∃ v, l.lookup k = some v := by
  induction l with
  | nil => simp
  | cons p ps ih =>
    by_cases h : k = p.1
    · subst h; simp [List.lookup]
    · have h2 : (k == p.1) = false := by simpa using h
      simp only [List.map_cons, List.mem_cons, h, false_or, List.lookup, h2]
      exact ih

private theorem pd_found (k : K) (l : List (K × V)) :
    Dict.findIndex k (l.map Prod.fst) = (l.map Prod.fst).length ↔ l.lookup k = none := by
  rw [Dict.findIndex_eq_length, pd_mem]
  cases l.lookup k <;> simp

private theorem pd_set (k : K) (v : V) (l : List (K × V)) (hn : (l.map Prod.fst).Nodup) :
    (l.map Prod.snd).set (Dict.findIndex k (l.map Prod.fst)) v
      = (l.map (fun q => if q.1 = k then (k, v) else q)).map Prod.snd := by
  induction l with
  | nil => rfl
  | cons p ps ih =>
    simp only [List.map_cons, List.nodup_cons] at hn
    simp only [List.map_cons, Dict.findIndex]
    by_cases h : p.1 = k
    · subst h
      simp only [if_true, List.set_cons_zero, List.cons.injEq, true_and]
      rw [List.map_map]
      apply List.map_congr_left
      intro q hq
      have : q.1 ≠ p.1 := fun e => hn.1 (e ▸ List.mem_map.2 ⟨q, hq, rfl⟩)
      simp [this]
    · simp only [h, if_false, List.set_cons_succ, ih hn.2]

private theorem pd_erase (k : K) (l : List (K × V)) (hn : (l.map Prod.fst).Nodup) :
    (l.map Prod.fst).eraseIdx (Dict.findIndex k (l.map Prod.fst)) = (pyDel l k).map Prod.fst ∧
      (l.map Prod.snd).eraseIdx (Dict.findIndex k (l.map Prod.fst)) = (pyDel l k).map Prod.snd := by
  induction l with
  | nil => exact ⟨rfl, rfl⟩
  | cons p ps ih =>
    simp only [List.map_cons, List.nodup_cons] at hn
    simp only [List.map_cons, Dict.findIndex, pyDel]
    by_cases h : p.1 = k
    · subst h
      have hf : ps.filter (fun q => decide (q.1 ≠ p.1)) = ps := by
        rw [List.filter_eq_self]
        intro q hq
        simp only [ne_eq, decide_not, Bool.not_eq_eq_eq_not, Bool.not_true, decide_eq_false_iff_not]
        exact fun e => hn.1 (e ▸ List.mem_map.2 ⟨q, hq, rfl⟩)
      rw [List.filter_cons_of_neg (by simp), hf]
      simp
    · rw [List.filter_cons_of_pos (by simpa using h)]
      simp only [h, if_false, List.eraseIdx_cons_succ, List.map_cons, List.cons.injEq, true_and]
      exact ih hn.2

private theorem pd_set_keys (k : K) (v : V) (l : List (K × V)) :
    (l.map (fun q => if q.1 = k then (k, v) else q)).map Prod.fst = l.map Prod.fst := by
  rw [List.map_map]
  apply List.map_congr_left
  intro q _
  by_cases h : q.1 = k <;> simp [h]

private theorem pd_insert (s : Map K V) (l : List (K × V)) (h : Has s l) (k : K) (v : V) :
    ∃ d, s.dict.insertOrAssign k v = .ok d ∧ ∀ r, Has ⟨d, r⟩ (pySet l k v) := by
  obtain ⟨h1, h2, h3⟩ := h
  unfold Dict.insertOrAssign
  rw [h1, h2]
  by_cases hk : k ∈ l.map Prod.fst
  · have hne : Dict.findIndex k (l.map Prod.fst) ≠ (l.map Prod.fst).length :=
      fun e => (Dict.findIndex_eq_length.1 e) hk
    have hlt : Dict.findIndex k (l.map Prod.fst) < (l.map Prod.snd).length := by
      have := Dict.findIndex_le k (l.map Prod.fst)
      simp only [List.length_map] at *
      omega
    rw [if_neg hne, if_pos hlt]
    refine ⟨_, rfl, fun r => ?_⟩
    unfold pySet
    rw [if_pos hk]
    exact ⟨(pd_set_keys k v l).symm, pd_set k v l h3, by rw [pd_set_keys]; exact h3⟩
  · rw [if_pos (Dict.findIndex_eq_length.2 hk)]
    refine ⟨_, rfl, fun r => ?_⟩
    unfold pySet
    rw [if_neg hk]
    refine ⟨by simp, by simp, ?_⟩
    rw [List.map_append, List.nodup_append]
    refine ⟨h3, by simp, ?_⟩
    intro a ha b hb e
    simp only [List.map_cons, List.map_nil, List.mem_singleton] at hb
    exact hk (hb ▸ e ▸ ha)

private theorem pd_del_has (l : List (K × V)) (k : K) (hn : (l.map Prod.fst).Nodup) :
    ((pyDel l k).map Prod.fst).Nodup :=
  hn.sublist (List.Sublist.map _ List.filter_sublist)

private theorem pd_extract (s : Map K V) (l : List (K × V)) (h : Has s l) (k : K) :
    match l.lookup k with
    | some v => ∃ d, s.dict.extract k = .ok (v, d) ∧ ∀ r, Has ⟨d, r⟩ (pyDel l k)
    | none => s.dict.extract k = .error .notFound := by
  obtain ⟨h1, h2, h3⟩ := h
  have hv := pd_values k l
  have hf := pd_found k l
  cases hl : l.lookup k with
  | none =>
    simp only [Dict.extract, Dict.expectFindIndex, h1, hf.2 hl, if_true, bind, Except.bind]
  | some v =>
    have hne : ¬ Dict.findIndex k (l.map Prod.fst) = (l.map Prod.fst).length := by
      rw [hf, hl]; simp
    rw [hl] at hv
    refine ⟨⟨_, _⟩, ?_, fun r => ⟨(pd_erase k l h3).1, (pd_erase k l h3).2, pd_del_has l k h3⟩⟩
    simp only [Dict.extract, Dict.expectFindIndex, h1, h2, hne, if_false, bind, Except.bind, hv]

private theorem pd_contains (s : Map K V) (l : List (K × V)) (h : Has s l) (k : K) :
    s.dict.contains k = decide (k ∈ l.map Prod.fst) := by
  unfold Dict.contains
  rw [h.1]
  by_cases hk : k ∈ l.map Prod.fst
  · have : Dict.findIndex k (l.map Prod.fst) ≠ (l.map Prod.fst).length :=
      fun e => (Dict.findIndex_eq_length.1 e) hk
    simp only [hk, decide_true, bne_iff_ne, ne_eq, this, not_false_eq_true]
  · simp only [hk, decide_false, Dict.findIndex_eq_length.2 hk, bne_self_eq_false]

private theorem pd_at (s : Map K V) (l : List (K × V)) (h : Has s l) (k : K) :
    s.dict.at' k = match l.lookup k with | some v => .ok v | none => .error .notFound := by
  obtain ⟨h1, h2, h3⟩ := h
  have hv := pd_values k l
  have hf := pd_found k l
  cases hl : l.lookup k with
  | none => simp only [Dict.at', Dict.expectFindIndex, h1, hf.2 hl, if_true, bind, Except.bind]
  | some v =>
    have hne : ¬ Dict.findIndex k (l.map Prod.fst) = (l.map Prod.fst).length := by
      rw [hf, hl]; simp
    rw [hl] at hv
    simp only [Dict.at', Dict.expectFindIndex, h1, h2, hne, if_false, bind, Except.bind, hv]

private theorem pd_items (s : Map K V) (l : List (K × V)) (h : Has s l) : s.dict.items = l := by
  unfold Dict.items
  rw [h.1, h.2.1]
  exact (List.zip_of_prod rfl rfl).symm

private theorem pd_eraseAll (l : List (K × V)) : ∀ s : Map K V, s.readonly = false → Has s l →
    ∃ d, eraseAll s (l.map Prod.fst) = (⟨d, false⟩, none) ∧ Has ⟨d, false⟩ ([] : List (K × V)) := by
  induction l with
  | nil =>
    intro s hr h
    refine ⟨s.dict, ?_, h⟩
    simp only [List.map_nil, eraseAll, ← hr]
  | cons p ps ih =>
    intro s hr h
    have hx := pd_extract s _ h p.1
    have hl : (p :: ps).lookup p.1 = some p.2 := by simp [List.lookup]
    rw [hl] at hx
    obtain ⟨d, h1, h2⟩ := hx
    have hd : pyDel (p :: ps) p.1 = ps := by
      have hn := h.2.2
      simp only [List.map_cons, List.nodup_cons] at hn
      unfold pyDel
      rw [List.filter_cons_of_neg (by simp), List.filter_eq_self]
      intro q hq
      simp only [ne_eq, decide_not, Bool.not_eq_eq_eq_not, Bool.not_true, decide_eq_false_iff_not]
      exact fun e => hn.1 (e ▸ List.mem_map.2 ⟨q, hq, rfl⟩)
    obtain ⟨d', h3, h4⟩ := ih ⟨d, false⟩ rfl (hd ▸ h2 false)
    refine ⟨d', ?_, h4⟩
    simp only [List.map_cons, eraseAll, delItem, PyDict.extract, hr, Bool.false_eq_true, if_false, h1]
    exact h3

private theorem pd_setAll (fits : V → Bool) (ps : List (K × V)) :
    ∀ (s : Map K V) (l : List (K × V)), s.readonly = false → Has s l →
      (∀ v ∈ ps.map Prod.snd, fits v = true) →
      ∃ d, setAll fits s ps = (⟨d, false⟩, none) ∧
        Has ⟨d, false⟩ (ps.foldl (fun m p => pySet m p.1 p.2) l) := by
  induction ps with
  | nil => intro s l hr h _; exact ⟨s.dict, by simp only [setAll, ← hr], h⟩
  | cons p ps ih =>
    intro s l hr h hf
    obtain ⟨d, h1, h2⟩ := pd_insert s l h p.1 p.2
    have hp : fits p.2 = true := hf _ (by simp)
    obtain ⟨d', h3, h4⟩ := ih ⟨d, false⟩ _ rfl (h2 false)
      (fun v hv => hf v (by simp only [List.map_cons]; exact List.mem_cons_of_mem _ hv))
    refine ⟨d', ?_, h4⟩
    simp only [setAll, setItem, hr, Bool.false_eq_true, if_false, hp, if_true, h1]
    exact h3

private theorem pd_mem_set (m : List (K × V)) (k j : K) (v : V) :
    j ∈ (pySet m k v).map Prod.fst ↔ j = k ∨ j ∈ m.map Prod.fst := by
  unfold pySet
  by_cases hk : k ∈ m.map Prod.fst
  · rw [if_pos hk, pd_set_keys]
    constructor
    · exact .inr
    · rintro (rfl | h)
      · exact hk
      · exact h
  · rw [if_neg hk]
    simp only [List.map_append, List.map_cons, List.map_nil, List.mem_append, List.mem_singleton]
    exact or_comm

private theorem pd_set_set (m : List (K × V)) (k : K) (w v : V) :
    pySet (pySet m k w) k v = pySet m k v := by
  have h1 : k ∈ (pySet m k w).map Prod.fst := (pd_mem_set m k k w).2 (.inl rfl)
  rw [pySet, if_pos h1]
  unfold pySet
  by_cases hk : k ∈ m.map Prod.fst
  · rw [if_pos hk, if_pos hk, List.map_map]
    apply List.map_congr_left
    intro q _
    by_cases e : q.1 = k <;> simp [e]
  · rw [if_neg hk, if_neg hk, List.map_append]
    congr 1
    · refine (List.map_congr_left ?_).trans (List.map_id _)
      intro q hq
      have : q.1 ≠ k := fun e => hk (e ▸ List.mem_map.2 ⟨q, hq, rfl⟩)
      simp [this]
    · simp

private theorem pd_set_comm (m : List (K × V)) (k j : K) (v x : V) (hkj : k ≠ j)
    (hk : k ∈ m.map Prod.fst) : pySet (pySet m k v) j x = pySet (pySet m j x) k v := by
  have h1 : k ∈ (pySet m j x).map Prod.fst := (pd_mem_set m j k x).2 (.inr hk)
  have h2 : j ∈ (pySet m k v).map Prod.fst ↔ j ∈ m.map Prod.fst := by
    rw [pd_mem_set]
    exact ⟨fun h => h.resolve_left hkj.symm, .inr⟩
  by_cases hj : j ∈ m.map Prod.fst
  · rw [pySet, if_pos (h2.2 hj), pySet, if_pos hk, pySet, if_pos h1, pySet, if_pos hj, List.map_map,
      List.map_map]
    apply List.map_congr_left
    intro q _
    by_cases e : q.1 = k
    · simp [e, hkj]
    · by_cases e' : q.1 = j
      · simp [e', hkj.symm]
      · simp [e, e']
  · rw [pySet, if_neg (fun h => hj (h2.1 h)), pySet, if_pos hk, pySet, if_pos h1, pySet, if_neg hj,
      List.map_append]
    simp [hkj.symm]

private theorem pd_fold_comm (b : List (K × V)) (k : K) (v : V) : ∀ m : List (K × V),
    k ∈ m.map Prod.fst → k ∉ b.map Prod.fst →
    b.foldl (fun m p => pySet m p.1 p.2) (pySet m k v)
      = pySet (b.foldl (fun m p => pySet m p.1 p.2) m) k v := by
  induction b with
  | nil => intro m _ _; rfl
  | cons p ps ih =>
    intro m hk hb
    simp only [List.map_cons, List.mem_cons, not_or] at hb
    simp only [List.foldl_cons]
    rw [pd_set_comm m k p.1 v p.2 hb.1 hk, ih _ ((pd_mem_set _ _ _ _).2 (.inr hk)) hb.2]

private theorem pd_fold_replace (a : List (K × V)) (k : K) (v : V) : ∀ l : List (K × V),
    (a.map Prod.fst).Nodup → k ∈ a.map Prod.fst →
    (a.map (fun q => if q.1 = k then (k, v) else q)).foldl (fun m p => pySet m p.1 p.2) l
      = pySet (a.foldl (fun m p => pySet m p.1 p.2) l) k v := by
  induction a with
  | nil => intro l _ h; simp at h
  | cons p ps ih =>
    intro l hn hk
    simp only [List.map_cons, List.nodup_cons] at hn
    by_cases e : p.1 = k
    · subst e
      have hm : ps.map (fun q => if q.1 = p.1 then (p.1, v) else q) = ps := by
        refine (List.map_congr_left ?_).trans (List.map_id _)
        intro q hq
        have : q.1 ≠ p.1 := fun e => hn.1 (e ▸ List.mem_map.2 ⟨q, hq, rfl⟩)
        simp [this]
      simp only [List.map_cons, if_true, List.foldl_cons, hm]
      rw [← pd_fold_comm ps p.1 v _ ((pd_mem_set _ _ _ _).2 (.inl rfl)) hn.1, pd_set_set]
    · simp only [List.map_cons, List.mem_cons] at hk
      simp only [List.map_cons, e, if_false, List.foldl_cons]
      exact ih _ hn.2 (hk.resolve_left (fun h => e h.symm))

private theorem pd_nodup_set (m : List (K × V)) (k : K) (v : V) (hn : (m.map Prod.fst).Nodup) :
    ((pySet m k v).map Prod.fst).Nodup := by
  unfold pySet
  by_cases hk : k ∈ m.map Prod.fst
  · rw [if_pos hk, pd_set_keys]; exact hn
  · rw [if_neg hk, List.map_append, List.nodup_append]
    refine ⟨hn, by simp, ?_⟩
    intro a ha b hb e
    simp only [List.map_cons, List.map_nil, List.mem_singleton] at hb
    exact hk (hb ▸ e ▸ ha)

private theorem pd_gather_eq (ps : List (K × V)) : ∀ a : List (K × V),
    gather a ps = ps.foldl (fun m p => pySet m p.1 p.2) a := by
  induction ps with
  | nil => intro a; rfl
  | cons p ps ih =>
    intro a
    simp only [gather, List.foldl_cons]
    rw [ih]
    congr 1
    unfold pySet
    by_cases hk : p.1 ∈ a.map Prod.fst
    · rw [if_pos hk, if_pos hk]
      apply List.map_congr_left
      intro q _
      by_cases e : q.1 = p.1 <;> simp [e]
    · rw [if_neg hk, if_neg hk]

private theorem pd_update (ps l : List (K × V)) : ∀ a : List (K × V), (a.map Prod.fst).Nodup →
    (gather a ps).foldl (fun m p => pySet m p.1 p.2) l
      = ps.foldl (fun m p => pySet m p.1 p.2) (a.foldl (fun m p => pySet m p.1 p.2) l) := by
  rw [show gather = fun (a ps : List (K × V)) => ps.foldl (fun m p => pySet m p.1 p.2) a from
    funext fun a => funext fun ps => pd_gather_eq ps a]
  induction ps with
  | nil => intro a _; rfl
  | cons p ps ih =>
    intro a hn
    simp only [List.foldl_cons]
    rw [ih _ (pd_nodup_set a p.1 p.2 hn)]
    congr 1
    rw [pySet]
    by_cases hk : p.1 ∈ a.map Prod.fst
    · rw [if_pos hk, pd_fold_replace a p.1 p.2 l hn hk]
    · rw [if_neg hk, List.foldl_append]; rfl

private theorem pd_gather_values (ps : List (K × V)) : ∀ a : List (K × V), ∀ v ∈ (gather a ps).map Prod.snd,
    v ∈ a.map Prod.snd ∨ v ∈ ps.map Prod.snd := by
  induction ps with
  | nil => intro a v hv; exact .inl hv
  | cons p ps ih =>
    intro a v hv
    simp only [gather] at hv
    simp only [List.map_cons, List.mem_cons]
    rcases ih _ v hv with h | h
    · by_cases hk : p.1 ∈ a.map Prod.fst
      · rw [if_pos hk, List.map_map] at h
        obtain ⟨q, hq, rfl⟩ := List.mem_map.1 h
        by_cases e : q.1 = p.1
        · right; left; simp [e]
        · left; simp only [Function.comp, e, if_false]; exact List.mem_map.2 ⟨q, hq, rfl⟩
      · rw [if_neg hk, List.map_append, List.mem_append] at h
        rcases h with h | h
        · exact .inl h
        · right; left; simpa using h
    · exact .inr (.inr h)

private theorem pd_last (key0 : K) (ks : List K) :
    ks.foldl (fun _ k => k) key0 = ks.getLast?.getD key0 := by
  induction ks generalizing key0 with
  | nil => rfl
  | cons k ks ih =>
    simp only [List.foldl_cons, ih]
    cases ks with
    | nil => rfl
    | cons a as =>
      rw [List.getLast?_cons_cons]
      cases h : (a :: as).getLast? with
      | none => simp at h
      | some b => rfl

private theorem pd_popItem (l : List (K × V)) (k : K) (v : V) (hn : (l.map Prod.fst).Nodup)
    (hl : l.getLast? = some (k, v)) : l.lookup k = some v ∧ pyDel l k = l.dropLast := by
  obtain ⟨m, rfl⟩ : ∃ m, l = m ++ [(k, v)] := List.getLast?_eq_some_iff.1 hl
  rw [List.map_append, List.nodup_append] at hn
  have hk : k ∉ m.map Prod.fst := fun h => hn.2.2 k h k (by simp) rfl
  constructor
  · have : m.lookup k = none := by
      cases h : m.lookup k with
      | none => rfl
      | some w => exact absurd ((pd_mem k m).2 ⟨w, h⟩) hk
    rw [List.lookup_append, this]
    simp [List.lookup]
  · unfold pyDel
    rw [List.filter_append, List.filter_cons_of_neg (by simp), List.filter_nil, List.append_nil,
      List.dropLast_concat, List.filter_eq_self]
    intro q hq
    simp only [ne_eq, decide_not, Bool.not_eq_eq_eq_not, Bool.not_true, decide_eq_false_iff_not]
    exact fun e => hk (e ▸ List.mem_map.2 ⟨q, hq, rfl⟩)

private theorem pd_step (fits : V → Bool) (key0 : K) (s : Map K V) (l : List (K × V))
    (hr : s.readonly = false) (h : Has s l) (op : Op K V) (hf : ∀ v ∈ op.inserted, fits v = true) :
    ∃ s', step fits key0 s op = (s', (pyStep l op).2) ∧ s'.readonly = false ∧
      Has s' (pyStep l op).1 := by
  cases op with
  | getItem k =>
    refine ⟨s, ?_, hr, h⟩
    simp only [step, getItem, pd_at s l h k, pyStep]
    cases l.lookup k <;> rfl
  | setItem k v =>
    obtain ⟨d, h1, h2⟩ := pd_insert s l h k v
    have hv : fits v = true := hf v (by simp [Op.inserted])
    refine ⟨⟨d, false⟩, ?_, rfl, h2 false⟩
    simp only [step, setItem, hr, Bool.false_eq_true, if_false, hv, if_true, h1, pyStep]
  | delItem k =>
    have hx := pd_extract s l h k
    cases hl : l.lookup k with
    | none =>
      rw [hl] at hx
      refine ⟨s, ?_, hr, by simp only [pyStep, hl]; exact h⟩
      simp only [step, delItem, PyDict.extract, hr, Bool.false_eq_true, if_false, hx, pyStep, hl]
    | some v =>
      rw [hl] at hx
      obtain ⟨d, h1, h2⟩ := hx
      refine ⟨⟨d, false⟩, ?_, rfl, by simp only [pyStep, hl]; exact h2 false⟩
      simp only [step, delItem, PyDict.extract, hr, Bool.false_eq_true, if_false, h1, pyStep, hl]
  | contains k =>
    exact ⟨s, by simp only [step, pd_contains s l h k, pyStep], hr, h⟩
  | len => exact ⟨s, by simp only [step, h.1, pyStep, List.length_map], hr, h⟩
  | items => exact ⟨s, by simp only [step, pd_items s l h, pyStep], hr, h⟩
  | get k d =>
    refine ⟨s, ?_, hr, h⟩
    simp only [step, PyDict.get, getItem, pd_at s l h k, pyStep]
    cases l.lookup k <;> cases d <;> rfl
  | pop k d =>
    have hx := pd_extract s l h k
    have hc := pd_contains s l h k
    cases hl : l.lookup k with
    | none =>
      rw [hl] at hx
      have hk : k ∉ l.map Prod.fst := by rw [pd_mem, hl]; simp
      rw [decide_eq_false hk] at hc
      cases d with
      | none =>
        refine ⟨s, ?_, hr, by simp only [pyStep, hl]; exact h⟩
        simp only [step, PyDict.pop, hc, PyDict.extract, hr, Bool.false_eq_true, if_false, hx, pyStep, hl]
      | some w =>
        refine ⟨s, ?_, hr, by simp only [pyStep, hl]; exact h⟩
        simp only [step, PyDict.pop, hc, pyStep, hl]
    | some v =>
      rw [hl] at hx
      obtain ⟨d', h1, h2⟩ := hx
      have hk : k ∈ l.map Prod.fst := (pd_mem k l).2 ⟨v, hl⟩
      rw [decide_eq_true hk] at hc
      refine ⟨⟨d', false⟩, ?_, rfl, by simp only [pyStep, hl]; exact h2 false⟩
      simp only [step, PyDict.pop, hc, PyDict.extract, hr, Bool.false_eq_true, if_false, h1, pyStep, hl]
  | popItem =>
    have hlast : s.dict.keys.foldl (fun _ k => k) key0 = ((l.map Prod.fst).getLast?).getD key0 := by
      rw [pd_last, h.1]
    cases hl : l.getLast? with
    | none =>
      have : l = [] := List.getLast?_eq_none_iff.1 hl
      subst this
      have hx := pd_extract s [] h key0
      simp only [List.lookup] at hx
      simp only [List.map_nil, List.getLast?_nil, Option.getD_none] at hlast
      refine ⟨s, ?_, hr, h⟩
      simp only [step, popItem, hlast, PyDict.extract, hr, Bool.false_eq_true, if_false, hx, pyStep, hl]
    | some p =>
      obtain ⟨k, v⟩ := p
      obtain ⟨h5, h6⟩ := pd_popItem l k v h.2.2 hl
      have hx := pd_extract s l h k
      rw [h5] at hx
      obtain ⟨d', h1, h2⟩ := hx
      rw [List.getLast?_map, hl] at hlast
      simp only [Option.map_some, Option.getD_some] at hlast
      refine ⟨⟨d', false⟩, ?_, rfl, by simp only [pyStep, hl]; rw [← h6]; exact h2 false⟩
      simp only [step, popItem, hlast, PyDict.extract, hr, Bool.false_eq_true, if_false, h1, pyStep, hl]
  | clear =>
    obtain ⟨d, h1, h2⟩ := pd_eraseAll l s hr h
    refine ⟨⟨d, false⟩, ?_, rfl, h2⟩
    simp only [step, PyDict.clear, h.1, h1, pyStep]
  | update ps =>
    obtain ⟨d, h1, h2⟩ := pd_setAll fits (gather [] ps) s l hr h (fun v hv =>
      (pd_gather_values ps [] v hv).elim (fun h => by simp at h) (fun h => hf v h))
    refine ⟨⟨d, false⟩, ?_, rfl, ?_⟩
    · simp only [step, PyDict.update, h1, pyStep]
    · rw [pd_update ps l [] (by simp)] at h2
      exact h2

/-- **C94** coords and masks behave like a Python `dict`: for every sequence of calls, everything that
is returned, every `KeyError` and the items left in the end (with their order) are what Python's own
`dict` gives, as long as the dict is not read-only and the variables put into it fit its dims. -/
theorem C94_python_dict (fits : V → Bool) (key0 : K) (s : Map K V) (l : List (K × V))
    (hr : s.readonly = false) (h : Has s l) (ops : List (Op K V))
    (hf : ∀ op ∈ ops, ∀ v ∈ op.inserted, fits v = true) :
    (run fits key0 s ops).2 = (pyRun l ops).2 ∧
      (run fits key0 s ops).1.dict.items = (pyRun l ops).1 ∧
      ((pyRun l ops).1.map Prod.fst).Nodup := by
  induction ops generalizing s l with
  | nil => exact ⟨rfl, pd_items s l h, h.2.2⟩
  | cons op ops ih =>
    obtain ⟨s', h1, h2, h3⟩ := pd_step fits key0 s l hr h op (hf op List.mem_cons_self)
    obtain ⟨i1, i2, i3⟩ := ih s' _ h2 h3 (fun o ho => hf o (List.mem_cons_of_mem _ ho))
    refine ⟨?_, ?_, ?_⟩
    · simp only [run, pyRun, h1, i1]
    · simp only [run, pyRun, h1]; exact i2
    · simp only [pyRun]; exact i3

/-- Coords `x` and `y`. -/
private def exMap : Map String Nat := ⟨⟨["x", "y"], [1, 2]⟩, false⟩
private def exOps : List (Op String Nat) :=
  [.setItem "x" 3, .popItem, .update [("a", 1), ("x", 4), ("a", 5)], .pop "z" (some 7), .pop "z" none,
    .delItem "x", .setItem "x" 8, .items, .popItem, .get "x" none, .clear, .popItem, .len]

example : (run (fun _ => true) "" exMap exOps).2 =
    [.none, .pair "y" 2, .none, .value 7, .error .notFound, .none, .none, .items [("a", 5), ("x", 8)],
      .pair "x" 8, .none, .none, .error .notFound, .nat 0] := by
  rw [(C94_python_dict (fun _ => true) "" exMap [("x", 1), ("y", 2)] rfl
    ⟨rfl, rfl, by decide⟩ exOps (fun _ _ _ _ => rfl)).1]
  decide

/-! ### Failure -/

/-- **C94** a read-only dict is never changed, whatever is done with it. -/
theorem C94_readonly (fits : V → Bool) (key0 : K) (s : Map K V) (hr : s.readonly = true)
    (ops : List (Op K V)) : (run fits key0 s ops).1 = s := by
  have hx : ∀ k, PyDict.extract s k = .error .readonly := fun k => by simp [PyDict.extract, hr]
  have hset : ∀ k v, setItem fits s k v = .error .readonly := fun k v => by simp [setItem, hr]
  have hstep : ∀ op, (step fits key0 s op).1 = s := by
    intro op
    cases op with
    | getItem k => simp only [step]; cases getItem s k <;> rfl
    | setItem k v => simp only [step, hset]
    | delItem k => simp only [step, delItem, hx]
    | contains k => rfl
    | len => rfl
    | items => rfl
    | get k d =>
      simp only [step]
      cases PyDict.get s k d with
      | error e => rfl
      | ok o => cases o <;> rfl
    | pop k d =>
      simp only [step, PyDict.pop]
      cases s.dict.contains k <;> cases d <;> simp only [hx]
    | popItem => simp only [step, popItem, hx]
    | clear =>
      simp only [step, PyDict.clear]
      cases s.dict.keys with
      | nil => rfl
      | cons k ks => simp only [eraseAll, delItem, hx]
    | update ps =>
      simp only [step, PyDict.update]
      cases gather [] ps with
      | nil => rfl
      | cons p ps => simp only [setAll, hset]
  induction ops with
  | nil => rfl
  | cons op ops ih => simp only [run, hstep]; exact ih

example : (run (fun _ => true) "" { exMap with readonly := true } exOps).1
    = { exMap with readonly := true } := C94_readonly _ _ _ rfl _

/-- **C94** a variable that does not fit is refused and the dict stays as it is. -/
theorem C94_misfit (fits : V → Bool) (key0 : K) (s : Map K V) (hr : s.readonly = false) (k : K) (v : V)
    (hv : fits v = false) :
    step fits key0 s (.setItem k v) = (s, .error .dimension) := by
  simp only [step, setItem, hr, Bool.false_eq_true, if_false, hv]

example : step (fun v => decide (v < 5)) "" exMap (.setItem "a" 9) = (exMap, .error .dimension) :=
  C94_misfit _ _ _ rfl _ _ (by decide)

/-- **C94** `update` assigns one item after another, as documented: if one does not fit, exactly the
items given before it have been assigned. -/
theorem C94_update_fails (fits : V → Bool) (key0 : K) (s : Map K V) (l : List (K × V))
    (hr : s.readonly = false) (h : Has s l) (before after : List (K × V)) (k : K) (v : V)
    (hn : ((before ++ (k, v) :: after).map Prod.fst).Nodup)
    (hb : ∀ w ∈ before.map Prod.snd, fits w = true) (hv : fits v = false) :
    (step fits key0 s (.update (before ++ (k, v) :: after))).2 = .error .dimension ∧
    (step fits key0 s (.update (before ++ (k, v) :: after))).1.dict.items
      = before.foldl (fun m p => pySet m p.1 p.2) l := by
  have hg : ∀ (ps a : List (K × V)), ((a ++ ps).map Prod.fst).Nodup → gather a ps = a ++ ps := by
    intro ps
    induction ps with
    | nil => intro a _; simp [gather]
    | cons p ps ih =>
      intro a hn
      have hp : p.1 ∉ a.map Prod.fst := by
        rw [List.map_append, List.nodup_append] at hn
        exact fun hm => hn.2.2 p.1 hm p.1 (by simp) rfl
      simp only [gather, if_neg hp]
      rw [ih (a ++ [p]) (by simpa using hn)]
      simp
  have hset : ∀ (ps : List (K × V)) (s : Map K V) (l : List (K × V)), s.readonly = false → Has s l →
      (∀ w ∈ ps.map Prod.snd, fits w = true) →
      ∃ d, setAll fits s (ps ++ (k, v) :: after) = (⟨d, false⟩, some .dimension) ∧
        Has ⟨d, false⟩ (ps.foldl (fun m p => pySet m p.1 p.2) l) := by
    intro ps
    induction ps with
    | nil =>
      intro s l hr h _
      refine ⟨s.dict, ?_, h⟩
      obtain ⟨d, r⟩ := s
      have hr : r = false := hr
      subst hr
      simp only [List.nil_append, setAll, setItem, Bool.false_eq_true, if_false, hv]
    | cons p ps ih =>
      intro s l hr h hf
      obtain ⟨d, h1, h2⟩ := pd_insert s l h p.1 p.2
      have hp : fits p.2 = true := hf _ (by simp)
      obtain ⟨d', h3, h4⟩ := ih ⟨d, false⟩ _ rfl (h2 false)
        (fun w hw => hf w (by simp only [List.map_cons]; exact List.mem_cons_of_mem _ hw))
      refine ⟨d', ?_, h4⟩
      simp only [List.cons_append, setAll, setItem, hr, Bool.false_eq_true, if_false, hp, if_true, h1]
      exact h3
  obtain ⟨d, h1, h2⟩ := hset before s l hr h hb
  have : PyDict.update fits s (before ++ (k, v) :: after) = (⟨d, false⟩, some .dimension) := by
    simp only [PyDict.update]
    rw [hg (before ++ (k, v) :: after) [] (by rw [List.nil_append]; exact hn), List.nil_append, h1]
  simp only [step, this]
  exact ⟨trivial, pd_items _ _ h2⟩

example : (step (fun v => decide (v < 5)) "" exMap (.update [("a", 1), ("y", 9), ("x", 3)])).1.dict.items
    = [("x", 1), ("y", 2), ("a", 1)] :=
  (C94_update_fails (fun v => decide (v < 5)) "" exMap [("x", 1), ("y", 2)] rfl ⟨rfl, rfl, by decide⟩
    [("a", 1)] [("x", 3)] "y" 9 (by decide) (by simp) (by decide)).2

/-! ### Comparing keys -/

/-- **C94** like key views of Python's `dict`, the keys of two dicts compare equal exactly if they are
the same set. -/
theorem C94_keys (s t : Map K V) (l m : List (K × V)) (hs : Has s l) (ht : Has t m) :
    keysEq s t = true ↔ ∀ k, k ∈ l.map Prod.fst ↔ k ∈ m.map Prod.fst := by
  unfold keysEq
  rw [List.isPerm_iff, hs.1, ht.1, List.perm_ext_iff_of_nodup hs.2.2 ht.2.2]

example : keysEq exMap ⟨⟨["y", "x"], [5, 6]⟩, true⟩ = true :=
  (C94_keys exMap _ [("x", 1), ("y", 2)] [("y", 5), ("x", 6)] ⟨rfl, rfl, by decide⟩
    ⟨rfl, rfl, by decide⟩).2 (by intro k; simp [or_comm])

end Scipp.Props
