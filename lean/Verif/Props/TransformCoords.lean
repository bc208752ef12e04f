import Verif.Lemmas.TransformCoords6
/-!
C106: coordinate transformations.
-/
namespace Scipp.Props
open Scipp Scipp.TransformCoords
variable {V : Type}

/-- A graph is accepted exactly if no name is the product of two rules. -/
theorem C106_make (rules : List (Rule V)) : (∃ g, Graph.make rules = .ok g) ↔ (rules.flatMap Rule.outs).Nodup := by
  have := convertFrom_iff rules 0 [] (by simp)
  simp only [List.map_nil, List.nil_append] at this
  rw [← this]
  unfold Graph.make
  cases convertFrom 0 rules [] with
  | error e => simp
  | ok t => simp

/-- The rules found for the targets: either every needed name is in the input or is the product of a rule, and the result is the part of the graph needed for the targets;
or the search fails, and some needed name is neither. The search always ends. -/
theorem C106_graph {rules : List (Rule V)} {g : Graph V} (hg : Graph.make rules = .ok g) (s : Source V) (targets : List Name) :
    ((∀ n, g.Needed s targets n → s.has n = true ∨ ∃ i, g.Provides i n) ∧ ∃ sub, g.graphFor s targets = .ok sub ∧ g.IsSubgraph s targets sub ∧
      ∀ n, g.Needed s targets n → sub n ≠ none) ∨
    ((∃ n, g.Needed s targets n ∧ s.has n = false ∧ ∀ i, ¬ g.Provides i n) ∧ g.graphFor s targets = .error .notFound) := by
  rcases graphFor_spec (make_good hg) s targets with ⟨sub, h1, h2, h3⟩ | ⟨h1, h2⟩
  · refine Or.inl ⟨?_, sub, h1, h2, fun n hn => Option.isSome_iff_ne_none.1 (h3 n hn)⟩
    intro n hn
    obtain ⟨r, hr⟩ := Option.isSome_iff_exists.1 (h3 n hn)
    cases r with
    | fetch m => exact Or.inl ((h2.2 n m).1 hr).2.2.1
    | user i => exact Or.inr ⟨i, ((h2.1 n i).1 hr).2⟩
  · exact Or.inr ⟨h2, h1⟩

/-- The rules found do not depend on the order in which the set of targets is iterated. -/
theorem C106_target_order {rules : List (Rule V)} {g : Graph V} (hg : Graph.make rules = .ok g) (s : Source V) {targets targets' : List Name}
    (h : ∀ n, n ∈ targets ↔ n ∈ targets') : g.graphFor s targets = g.graphFor s targets' := by
  have hn : ∀ n, g.Needed s targets n ↔ g.Needed s targets' n := fun n => ⟨needed_congr fun n => (h n).1, needed_congr fun n => (h n).2⟩
  rcases C106_graph hg s targets with ⟨h1, sub, h2, h3, -⟩ | ⟨⟨n, h1, h1', h1''⟩, h2⟩
  · rcases C106_graph hg s targets' with ⟨k1, sub', k2, k3, -⟩ | ⟨⟨n, k1, k1', k1''⟩, k2⟩
    · rw [h2, k2, subgraph_unique h h3 k3]
    · exfalso
      rcases h1 n ((hn n).2 k1) with h | ⟨i, h⟩
      · rw [k1'] at h; cases h
      · exact k1'' i h
  · rcases C106_graph hg s targets' with ⟨k1, sub', k2, k3, -⟩ | ⟨-, k2⟩
    · exfalso
      rcases k1 n ((hn n).1 h1) with h | ⟨i, h⟩
      · rw [h1'] at h; cases h
      · exact h1'' i h
    · rw [h2, k2]

/-- The equations of the rules determine the coords: whatever the order of evaluation, there is at most one solution. -/
theorem C106_unique {rules : List (Rule V)} {g : Graph V} (hg : Graph.make rules = .ok g) (hd : g.Dicts) (binned : V → Bool) {s : Source V} {targets : List Name}
    {sub : Name → Option Ref} (hs : g.graphFor s targets = .ok sub) {order : List Name} (ht : g.Topological sub order) {env env' : Name → Val V}
    (h : g.Meaning binned s sub env) (h' : g.Meaning binned s sub env') (n : Name) (hn : sub n ≠ none) : env n = env' n := by
  have hsub : g.IsSubgraph s targets sub := by
    rcases graphFor_spec (make_good hg) s targets with ⟨sub', h1, h2, -⟩ | ⟨h1, -⟩
    · rw [hs] at h1; cases h1; exact h2
    · rw [hs] at h1; cases h1
  exact meaning_unique (make_good hg) hd (seq_ok hsub ht) h h' n hn

/-- The transformation succeeds with a result exactly if there are coords that satisfy the equations of all rules and the result consists of these coords: targets are there
and aligned, used coords are dropped or unaligned as requested by the options, other coords are unchanged. The counting of usages never takes a coord away before its last
use. Partial: the claim is for aliases of one name, or of coords that are kept; see `C106_wrong_multi_alias` for the other case. -/
theorem C106_transform_partial {rules : List (Rule V)} {g : Graph V} (hg : Graph.make rules = .ok g) (hd : g.Dicts) (binned : V → Bool) (hasDim : V → Name → Bool) {s : Source V}
    (align : Name → Bool) {targets : List Name} (o : Options) {sub : Name → Option Ref} (hs : g.graphFor s targets = .ok sub) {order : List Name}
    (ht : g.Topological sub order) (hm : g.AliasesKept targets o sub) (r : Result V) :
    g.transform binned hasDim s align targets o order = .ok r ↔ ∃ env, g.Meaning binned s sub env ∧ g.ResultIs s align targets o sub env r :=
  transform_iff (make_good hg) hd binned hasDim align o hs ht hm r

/-- If everything is kept, this holds for all graphs. -/
theorem C106_transform_keep {rules : List (Rule V)} {g : Graph V} (hg : Graph.make rules = .ok g) (hd : g.Dicts) (binned : V → Bool) (hasDim : V → Name → Bool) {s : Source V}
    (align : Name → Bool) {targets : List Name} {sub : Name → Option Ref} (hs : g.graphFor s targets = .ok sub) {order : List Name}
    (ht : g.Topological sub order) (r : Result V) :
    g.transform binned hasDim s align targets ⟨true, true, true⟩ order = .ok r ↔
      ∃ env, g.Meaning binned s sub env ∧ g.ResultIs s align targets ⟨true, true, true⟩ sub env r :=
  transform_iff (make_good hg) hd binned hasDim align _ hs ht
    (fun _ _ _ => Or.inr (by rintro ⟨-, -, ⟨_, -, h⟩ | ⟨_, _, _, -, -, h⟩ | ⟨_, _, _, _, -, -, h⟩⟩ <;> cases h)) r

/-- The result does not depend on the topological order in which the rules are applied. -/
theorem C106_order_partial {rules : List (Rule V)} {g : Graph V} (hg : Graph.make rules = .ok g) (hd : g.Dicts) (binned : V → Bool) (hasDim : V → Name → Bool) {s : Source V}
    (align : Name → Bool) {targets : List Name} (o : Options) {sub : Name → Option Ref} (hs : g.graphFor s targets = .ok sub) {order order' : List Name}
    (ht : g.Topological sub order) (ht' : g.Topological sub order') (hm : g.AliasesKept targets o sub) (r : Result V) :
    g.transform binned hasDim s align targets o order = .ok r ↔ g.transform binned hasDim s align targets o order' = .ok r := by
  rw [C106_transform_partial hg hd binned hasDim align o hs ht hm, C106_transform_partial hg hd binned hasDim align o hs ht' hm]

/-- Targets are in the result: aligned, for dense data or events. -/
theorem C106_targets_partial {rules : List (Rule V)} {g : Graph V} (hg : Graph.make rules = .ok g) (hd : g.Dicts) (binned : V → Bool) (hasDim : V → Name → Bool) {s : Source V}
    (align : Name → Bool) {targets : List Name} (o : Options) {sub : Name → Option Ref} (hs : g.graphFor s targets = .ok sub) {order : List Name}
    (ht : g.Topological sub order) (hm : g.AliasesKept targets o sub) {r : Result V} (hr : g.transform binned hasDim s align targets o order = .ok r)
    (n : Name) (hn : n ∈ targets) : (∃ v, r.coords n = some (v, true)) ∨ ∃ v, r.events n = some (v, true) := by
  have hgood := make_good hg
  obtain ⟨hsub, hne⟩ : g.IsSubgraph s targets sub ∧ sub n ≠ none := by
    rcases C106_graph hg s targets with ⟨-, sub', h1, h2, h3⟩ | ⟨-, h1⟩
    · rw [hs] at h1; cases h1; exact ⟨h2, h3 n (.target hn)⟩
    · rw [hs] at h1; cases h1
  have hq := seq_ok hsub ht
  obtain ⟨env, h1, h2⟩ := (C106_transform_partial hg hd binned hasDim align o hs ht hm r).1 hr
  obtain ⟨a, ha, k1, -, k2, -⟩ := (h2 n).2.2 hne (fun h => h.1 hn)
  have : a = true := ha.2 (Or.inl hn)
  subst this
  have hsome : (env n).Some := by
    have hrun : RunHyp g s sub (fun _ => -1) (ruleSequence sub order []) := ⟨hq, fun _ => Or.inl rfl⟩
    obtain ⟨t, dc, -, hi⟩ := run_ok hgood hd binned hasDim hrun (ruleSequence sub order []) [] (fun _ => none) [] rfl (inv_init env) ((meaning_iff hq).1 h1)
    obtain ⟨q, hq'⟩ := Option.ne_none_iff_exists'.1 hne
    have hqm := (hq.mem q).2 ⟨n, hq'⟩
    exact (hi.out q hqm n ((hq.outs q hqm n).2 hq')).1
  rcases hsome with h | h
  · obtain ⟨v, hv⟩ := Option.ne_none_iff_exists'.1 h
    exact Or.inl ⟨v, k1 v hv⟩
  · obtain ⟨v, hv⟩ := Option.ne_none_iff_exists'.1 h
    exact Or.inr ⟨v, k2 v hv⟩

/-! ### a case meeting the hypotheses -/

/-- The values are numbers; those from 100 stand for binned variables. -/
abbrev exBinned (v : Nat) : Bool := decide (100 ≤ v)

/-- `{'b': 'a', ('c', 'd'): lambda b, e: {'c': b + e, 'd': b * e, 'x': 0}}` with a, b, c, d, e = 0, …, 4. -/
abbrev exRules : List (Rule Nat) :=
  [.rename [1] 0, .compute [2, 3] [1, 4] fun l => .ok (.dict [(2, l.headD 0 + l.getLastD 0), (3, l.headD 0 * l.getLastD 0), (9, 0)])]

/-- An input with a dense coord a and coords e for bins and events. -/
abbrev exSource : Source Nat := ⟨fun n => if n = 0 then some 5 else if n = 4 then some 7 else none, some fun n => if n = 4 then some 107 else none, []⟩

abbrev exGraph : Graph Nat := ⟨exRules, [(1, 0), (2, 1), (3, 1)]⟩

abbrev exSub : Name → Option Ref := setAll (setAll (setAll (setAll (fun _ => none) [2, 3] (.user 1)) [4] (.fetch 4)) [1] (.user 0)) [0] (.fetch 0)

theorem exTopological {g : Graph V} {sub : Name → Option Ref} {order : List Name} (h0 : order.Nodup) (h1 : ∀ n, n ∈ order ↔ (sub n).isSome)
    (h : ∀ i : Fin order.length, (match sub order[i] with | none => true | some r => (g.deps r).all (fun d => decide (d ∈ order.take i))) = true) : g.Topological sub order := by
  refine ⟨h0, h1, ?_⟩
  intro pre n post r ho hr d hd
  subst ho
  have hi : pre.length < (pre ++ n :: post).length := by simp
  have := h ⟨pre.length, hi⟩
  have hg : (pre ++ n :: post)[(⟨pre.length, hi⟩ : Fin _)] = n := by simp
  rw [hg, hr] at this
  dsimp only at this
  rw [List.all_eq_true] at this
  have := this d hd
  simpa using this

example : Graph.make exRules = .ok exGraph := rfl
example : exGraph.graphFor exSource [2] = .ok exSub := rfl
example : exGraph.Dicts := by
  intro outs args f h vs d hv
  simp only [List.mem_cons, List.not_mem_nil, or_false, reduceCtorEq, false_or] at h
  cases h
  simp only [Except.ok.injEq, Output.dict.injEq] at hv
  subst hv
  simp
example : exGraph.Topological exSub [0, 1, 4, 2, 3] := by
  refine exTopological (by decide) ?_ (by decide)
  intro n
  simp only [setAll, List.mem_cons, List.not_mem_nil, or_false]
  split_ifs <;> simp_all
example : exGraph.AliasesKept [2] ⟨false, false, false⟩ exSub := by
  intro outs k h
  simp only [List.mem_cons, List.not_mem_nil, or_false, reduceCtorEq] at h
  cases h
  exact Or.inl (by decide)
/-- The target and the additional output `d` are computed for bins and events; `a`, `b`, and `e` are dropped. -/
example : (exGraph.transform exBinned (fun _ _ => false) exSource (fun _ => true) [2] ⟨false, false, false⟩ [0, 1, 4, 2, 3]).map
    (fun r => ((List.range 5).map r.coords, (List.range 5).map r.events)) =
    .ok ([none, none, some (12, true), some (35, true), none], [none, none, some (112, true), some (535, true), none]) := rfl
/-- With everything kept, the inputs and the alias are there but not aligned. -/
example : (exGraph.transform exBinned (fun _ _ => false) exSource (fun _ => true) [2] ⟨true, true, true⟩ [4, 0, 1, 3, 2]).map
    (fun r => ((List.range 5).map r.coords, (List.range 5).map r.events)) =
    .ok ([some (5, false), some (5, false), some (12, true), some (35, true), some (7, false)], [none, none, some (112, true), some (535, true), some (107, false)]) := rfl
/-- A missing input. -/
example : exGraph.graphFor ⟨fun n => if n = 0 then some 5 else none, none, []⟩ [2] = .error .notFound := rfl
/-- A name with two rules. -/
example : Graph.make (exRules ++ [.rename [3] 0]) = .error .invalidArgument := rfl

/-! ### where the claim fails -/

/-- `{('b', 'c'): 'a'}` with `keep_inputs=False`: `a` is counted once but consumed for each name, so the second alias is lost although it is a target; no exception is raised. -/
theorem C106_wrong_multi_alias : ∃ (rules : List (Rule Nat)) (g : Graph Nat) (s : Source Nat) (sub : Name → Option Ref),
    Graph.make rules = .ok g ∧ g.graphFor s [1, 2] = .ok sub ∧ g.Topological sub [0, 1, 2] ∧
    (∃ env, g.Meaning exBinned s sub env ∧ env 2 = ⟨some 5, none⟩) ∧
    ∃ r, g.transform exBinned (fun _ _ => false) s (fun _ => true) [1, 2] ⟨true, true, false⟩ [0, 1, 2] = .ok r ∧ r.coords 1 = some (5, true) ∧ r.coords 2 = none ∧ r.events 2 = none := by
  refine ⟨[.rename [1, 2] 0], ⟨[.rename [1, 2] 0], [(1, 0), (2, 0)]⟩, ⟨fun n => if n = 0 then some 5 else none, none, []⟩,
    setAll (setAll (fun _ => none) [1, 2] (.user 0)) [0] (.fetch 0), rfl, rfl, ?_, ⟨fun _ => ⟨some 5, none⟩, ⟨?_, ?_⟩, rfl⟩, _, rfl, rfl, rfl, rfl⟩
  · refine exTopological (by decide) ?_ (by decide)
    intro n
    simp only [setAll, List.mem_cons, List.not_mem_nil, or_false]
    split_ifs <;> simp_all
  · intro n m h
    by_cases hn : n = 0
    · subst hn; rfl
    · simp [setAll, hn] at h
  · intro n i r h hr
    have : i = 0 := by
      have := (List.getElem?_eq_some_iff.1 hr).1
      simpa using this
    subst this
    cases hr
    intro _ _; rfl

/-- A coord that is recomputed along with another output of its rule: the dense coord of the result is the new one, but a coord of the events of that name stays as it was
in the input. Here `{('a', 'b'): f}` of `x`, where the input has a coord `a` for its events. -/
theorem C106_wrong_stale_event : ∃ (rules : List (Rule Nat)) (g : Graph Nat) (s : Source Nat) (sub : Name → Option Ref) (env : Name → Val Nat),
    Graph.make rules = .ok g ∧ g.graphFor s [1, 2] = .ok sub ∧ g.Topological sub [0, 1, 2] ∧ g.Meaning exBinned s sub env ∧ env 1 = ⟨some 6, none⟩ ∧
    ∃ r, g.transform exBinned (fun _ _ => false) s (fun _ => true) [1, 2] ⟨true, true, true⟩ [0, 1, 2] = .ok r ∧ r.coords 1 = some (6, true) ∧ r.events 1 = some (101, true) := by
  refine ⟨[.compute [1, 2] [0] fun l => .ok (.dict [(1, l.headD 0 + 1), (2, l.headD 0 + 2)])],
    ⟨[.compute [1, 2] [0] fun l => .ok (.dict [(1, l.headD 0 + 1), (2, l.headD 0 + 2)])], [(1, 0), (2, 0)]⟩,
    ⟨fun n => if n = 0 then some 5 else none, some fun n => if n = 1 then some 101 else none, []⟩,
    setAll (setAll (setAll (fun _ => none) [1] (.fetch 1)) [1, 2] (.user 0)) [0] (.fetch 0), fun n => ⟨some (5 + n), none⟩, rfl, rfl, ?_, ⟨?_, ?_⟩, rfl, _, rfl, rfl, rfl⟩
  · refine exTopological (by decide) ?_ (by decide)
    intro n
    simp only [setAll, List.mem_cons, List.not_mem_nil, or_false]
    split_ifs <;> simp_all
  · intro n m h
    by_cases hn : n = 0
    · subst hn; rfl
    · simp only [setAll, List.mem_cons, List.not_mem_nil, or_false, hn, if_false] at h
      split_ifs at h <;> simp_all
  · intro n i r h hr
    have : i = 0 := by
      have := (List.getElem?_eq_some_iff.1 hr).1
      simpa using this
    subst this
    cases hr
    left
    refine ⟨by simp, [5], [(1, 6), (2, 7)], rfl, Or.inl rfl, ?_⟩
    intro n hn
    simp only [List.mem_cons, List.not_mem_nil, or_false] at hn
    rcases hn with rfl | rfl
    · exact ⟨6, by simp, rfl⟩
    · exact ⟨7, by simp, rfl⟩

end Scipp.Props
