import Verif.Lemmas.TransformCoords5
/-!
Lemmas about coordinate transformations: the result.
-/
namespace Scipp.TransformCoords
variable {V : Type}

theorem convertFrom_iff : ∀ (rs : List (Rule V)) (i : Nat) (acc : List (Name × Nat)), (acc.map Prod.fst).Nodup →
    ((∃ t, convertFrom i rs acc = .ok t) ↔ (acc.map Prod.fst ++ rs.flatMap Rule.outs).Nodup)
  | [], i, acc, h => by simp [convertFrom, h]
  | r :: rs, i, acc, h => by
    have hid : (Prod.fst ∘ fun x : Name => (x, i)) = id := rfl
    have key : ((acc ++ r.outs.map (·, i)).map Prod.fst) = acc.map Prod.fst ++ r.outs := by
      rw [List.map_append, List.map_map, hid, List.map_id]
    rw [convertFrom]
    split
    · rename_i hc
      rw [convertFrom_iff rs (i + 1) _ (by
        rw [key, List.nodup_append]
        exact ⟨h, hc.1, fun a ha b hb he => hc.2 b hb (he ▸ ha)⟩), key, List.flatMap_cons, List.append_assoc]
    · rename_i hc
      constructor
      · rintro ⟨t, ht⟩; cases ht
      · intro hn
        exfalso
        apply hc
        rw [List.flatMap_cons, ← List.append_assoc] at hn
        have := (List.nodup_append.1 hn).1
        rw [List.nodup_append] at this
        exact ⟨this.2.1, fun n hn hc => this.2.2 n hc n hn rfl⟩

theorem needed_congr {g : Graph V} {s : Source V} {t t' : List Name} (h : ∀ n, n ∈ t → n ∈ t') {n : Name} (hn : g.Needed s t n) : g.Needed s t' n := by
  induction hn with
  | target hm => exact .target (h _ hm)
  | dep _ h1 h2 h3 h4 ih => exact .dep ih h1 h2 h3 h4

theorem subgraph_unique {g : Graph V} {s : Source V} {t t' : List Name} {sub sub' : Name → Option Ref} (h : ∀ n, n ∈ t ↔ n ∈ t')
    (h1 : g.IsSubgraph s t sub) (h2 : g.IsSubgraph s t' sub') : sub = sub' := by
  have hn : ∀ n, g.Needed s t n ↔ g.Needed s t' n := fun n => ⟨needed_congr fun n => (h n).1, needed_congr fun n => (h n).2⟩
  have hu : ∀ i, g.Used s t i ↔ g.Used s t' i := by
    intro i
    simp only [Graph.Used, hn]
  funext n
  have key : ∀ r, sub n = some r ↔ sub' n = some r := by
    intro r
    cases r with
    | fetch m => rw [h1.2, h2.2]; simp only [hn, hu]
    | user i => rw [h1.1, h2.1]; simp only [hu]
  cases hs : sub n with
  | none =>
    cases hs' : sub' n with
    | none => rfl
    | some r => rw [(key r).2 hs'] at hs; cases hs
  | some r => exact ((key r).1 hs).symm

theorem meaning_iff {g : Graph V} {binned : V → Bool} {s : Source V} {sub : Name → Option Ref} {rules : List Ref} (hq : SeqOk g s sub rules) {env : Name → Val V} :
    g.Meaning binned s sub env ↔ ∀ r ∈ rules, g.Eqn binned s env r := by
  constructor
  · intro h r hr
    obtain ⟨n, hn⟩ := (hq.mem r).1 hr
    have ho := (hq.outs r hr n).2 hn
    cases r with
    | fetch m =>
      simp only [Graph.outs, List.mem_singleton] at ho
      subst ho
      exact h.1 n n hn
    | user i =>
      obtain ⟨rule, h1, -⟩ := mem_outs_user.1 ho
      exact ⟨rule, h1, h.2 n i rule hn h1⟩
  · intro h
    refine ⟨?_, ?_⟩
    · intro n m hn
      have hr := (hq.mem _).2 ⟨n, hn⟩
      have ho := (hq.outs _ hr n).2 hn
      simp only [Graph.outs, List.mem_singleton] at ho
      subst ho
      exact h _ hr
    · intro n i rule hn hi
      obtain ⟨rule', h1, h2⟩ := h _ ((hq.mem _).2 ⟨n, hn⟩)
      rw [hi] at h1; cases h1; exact h2

theorem meaning_unique {g : Graph V} (hg : g.Good) (hd : g.Dicts) {binned : V → Bool} {s : Source V} {sub : Name → Option Ref} {rules : List Ref} (hq : SeqOk g s sub rules)
    {env env' : Name → Val V} (h : g.Meaning binned s sub env) (h' : g.Meaning binned s sub env') (n : Name) (hn : sub n ≠ none) : env n = env' n := by
  have hr : RunHyp g s sub (fun _ => -1) rules := ⟨hq, fun _ => Or.inl rfl⟩
  obtain ⟨t, dc, h1, h2⟩ := run_ok hg hd binned (fun _ _ => false) hr rules [] (fun _ => none) [] rfl (inv_init env) ((meaning_iff hq).1 h)
  obtain ⟨t', dc', h1', h2'⟩ := run_ok hg hd binned (fun _ _ => false) hr rules [] (fun _ => none) [] rfl (inv_init env') ((meaning_iff hq).1 h')
  rw [h1] at h1'; cases h1'
  obtain ⟨r, hr'⟩ := Option.ne_none_iff_exists'.1 hn
  have hrm := (hq.mem r).2 ⟨n, hr'⟩
  have ho := (hq.outs r hrm n).2 hr'
  obtain ⟨-, c, k1, k2, -, k4⟩ := h2.out r hrm n ho
  obtain ⟨-, c', j1, j2, -, j4⟩ := h2'.out r hrm n ho
  rw [k1] at j1; cases j1
  rw [if_pos rfl] at k2
  have hne : c.usages ≠ 0 := by rw [k2]; decide
  rw [← k4 hne, ← j4 hne]

theorem result_of_inv {g : Graph V} {s : Source V} {sub : Name → Option Ref} {rules : List Ref} (hq : SeqOk g s sub rules) (targets : List Name) (o : Options)
    (hm : g.AliasesKept targets o sub) (align : Name → Bool) {env : Name → Val V} {t : Table V}
    (hi : Inv g (g.totalUsages rules targets o) rules (rules.flatMap g.consumed) env t) : g.ResultIs s align targets o sub env (store s align targets t) := by
  have huse : ∀ n, n ∈ rules.flatMap g.consumed ↔ ∃ m r, sub m = some r ∧ n ∈ g.deps r := by
    intro n
    rw [List.mem_flatMap]
    constructor
    · rintro ⟨r, hr, h⟩
      obtain ⟨m, hm⟩ := (hq.mem r).1 hr
      exact ⟨m, r, hm, consumed_sub g r n h⟩
    · rintro ⟨m, r, hm, h⟩
      have hr := (hq.mem r).2 ⟨m, hm⟩
      refine ⟨r, hr, ?_⟩
      have ho := (hq.outs r hr m).2 hm
      cases r with
      | fetch k => simp [Graph.deps] at h
      | user i =>
        obtain ⟨rule, h1, h2⟩ := mem_deps_user.1 h
        obtain ⟨rule', h1', h3⟩ := mem_outs_user.1 ho
        rw [h1] at h1'; cases h1'
        simp only [Graph.consumed, h1]
        cases rule with
        | rename outs k =>
          simp only [Rule.deps, List.mem_singleton] at h2
          subst h2
          exact List.mem_map.2 ⟨m, h3, rfl⟩
        | compute outs args f => exact h2
  intro n
  refine ⟨?_, ?_, ?_⟩
  · intro hn
    have : t n = none := by
      apply hi.none
      intro r hr hc
      rw [(hq.outs r hr n).1 hc] at hn; cases hn
    simp only [store, this, and_self]
  · intro hd
    have hs : sub n ≠ none := by
      rcases hd.2.2 with ⟨m, h, -⟩ | ⟨i, outs, k, h, -⟩ | ⟨i, outs, args, f, h, -⟩ <;> (rw [h]; simp)
    obtain ⟨r, hr⟩ := Option.ne_none_iff_exists'.1 hs
    have hrm := (hq.mem r).2 ⟨n, hr⟩
    obtain ⟨-, c, k1, k2, -⟩ := hi.out r hrm n ((hq.outs r hrm n).2 hr)
    have hb := (budget hq targets o hm).1 n (Option.isSome_iff_ne_none.2 hs) hd
    have : c.usages = 0 := by
      rw [k2, if_neg (by omega)]; omega
    simp only [store, k1, this, if_true, and_self]
  · intro hs hd
    obtain ⟨r, hr⟩ := Option.ne_none_iff_exists'.1 hs
    have hrm := (hq.mem r).2 ⟨n, hr⟩
    have hor := (hq.outs r hrm n).2 hr
    obtain ⟨-, c, k1, k2, k3, k4⟩ := hi.out r hrm n hor
    have htot : g.totalUsages rules targets o n = -1 := by
      rcases totalUsages_eq g hq targets o n (Option.isSome_iff_ne_none.2 hs) with ⟨h, -⟩ | ⟨-, h⟩
      · exact absurd h hd
      · exact h
    rw [if_pos htot] at k2
    have hne : c.usages ≠ 0 := by rw [k2]; decide
    have hv := k4 hne
    have e1 : c.dense = (env n).dense := by rw [← hv]
    have e2 : c.event = (env n).event := by rw [← hv]
    refine ⟨if n ∈ targets then true else c.aligned, ?_, ?_, ?_, ?_, ?_⟩
    · unfold Graph.Aligned
      by_cases ht : n ∈ targets
      · simp [ht]
      · simp only [ht, if_false, false_or]
        rw [k3, Bool.and_eq_true, Bool.not_eq_true', decide_eq_true_iff, huse]
        have hren : g.isRename r = false ↔ ∀ i outs k, sub n = some (.user i) → g.rules[i]? ≠ some (.rename outs k) := by
          cases r with
          | fetch m =>
            simp only [Graph.isRename, true_iff]
            intro i outs k h; rw [hr] at h; cases h
          | user i =>
            simp only [Graph.isRename]
            constructor
            · intro h j outs k hj he
              rw [hr] at hj; cases hj
              rw [he] at h; cases h
            · intro h
              split
              · rename_i outs k he; exact absurd he (h i outs k hr)
              · rfl
        rw [hren]
        constructor
        · rintro ⟨h1, h2⟩
          exact ⟨fun m r' h3 h4 => h2 ⟨m, r', h3, h4⟩, h1⟩
        · rintro ⟨h1, h2⟩
          exact ⟨h2, fun ⟨m, r', h3, h4⟩ => h1 m r' h3 h4⟩
    · intro v hv; simp only [store, k1, if_neg hne, e1, hv]
    · intro hv; simp only [store, k1, if_neg hne, e1, hv]
    · intro v hv; simp only [store, k1, if_neg hne, e2, hv]
    · intro hv; simp only [store, k1, if_neg hne, e2, hv]

/-- The description determines the result. -/
theorem result_unique {g : Graph V} {s : Source V} {align : Name → Bool} {targets : List Name} {o : Options} {sub : Name → Option Ref} {env env' : Name → Val V} {r r' : Result V}
    (he : ∀ n, sub n ≠ none → env n = env' n) (h : g.ResultIs s align targets o sub env r) (h' : g.ResultIs s align targets o sub env' r') : r = r' := by
  have key : ∀ n, r.coords n = r'.coords n ∧ r.events n = r'.events n := by
    intro n
    obtain ⟨a1, a2, a3⟩ := h n
    obtain ⟨b1, b2, b3⟩ := h' n
    by_cases hs : sub n = none
    · rw [(a1 hs).1, (a1 hs).2, (b1 hs).1, (b1 hs).2]; exact ⟨rfl, rfl⟩
    · by_cases hd : g.Dropped targets o sub n
      · rw [(a2 hd).1, (a2 hd).2, (b2 hd).1, (b2 hd).2]; exact ⟨rfl, rfl⟩
      · obtain ⟨a, c1, c2, c3, c4, c5⟩ := a3 hs hd
        obtain ⟨b, d1, d2, d3, d4, d5⟩ := b3 hs hd
        have hab : a = b := by rw [Bool.eq_iff_iff, c1, d1]
        rw [← he n hs] at d2 d3 d4 d5
        subst hab
        constructor
        · cases hv : (env n).dense with
          | none => rw [c3 hv, d3 hv]
          | some v => rw [c2 v hv, d2 v hv]
        · cases hv : (env n).event with
          | none => rw [c5 hv, d5 hv]
          | some v => rw [c4 v hv, d4 v hv]
  cases r; cases r'
  congr
  · funext n; exact (key n).1
  · funext n; exact (key n).2

theorem transform_iff {g : Graph V} (hg : g.Good) (hd : g.Dicts) (binned : V → Bool) (hasDim : V → Name → Bool) {s : Source V} (align : Name → Bool) {targets : List Name}
    (o : Options) {sub : Name → Option Ref} (hs : g.graphFor s targets = .ok sub) {order : List Name} (ht : g.Topological sub order) (hm : g.AliasesKept targets o sub)
    (r : Result V) :
    g.transform binned hasDim s align targets o order = .ok r ↔ ∃ env, g.Meaning binned s sub env ∧ g.ResultIs s align targets o sub env r := by
  have hsub : g.IsSubgraph s targets sub := by
    rcases graphFor_spec hg s targets with ⟨sub', h1, h2, -⟩ | ⟨h1, -⟩
    · rw [hs] at h1; cases h1; exact h2
    · rw [hs] at h1; cases h1
  have hq := seq_ok hsub ht
  obtain ⟨-, hr⟩ := budget hq targets o hm
  have htr : ∀ env, g.Meaning binned s sub env → ∃ r', g.transform binned hasDim s align targets o order = .ok r' ∧ g.ResultIs s align targets o sub env r' := by
    intro env he
    obtain ⟨t, dc, h1, h2⟩ := run_ok hg hd binned hasDim hr (ruleSequence sub order []) [] (fun _ => none) [] rfl (inv_init env) ((meaning_iff hq).1 he)
    refine ⟨store s align targets t, ?_, result_of_inv hq targets o hm align h2⟩
    unfold Graph.transform
    rw [hs]
    dsimp only
    rw [h1]
  constructor
  · intro h
    have : ∃ env, g.Meaning binned s sub env := by
      unfold Graph.transform at h
      rw [hs] at h
      dsimp only at h
      cases hrun : g.runRules binned hasDim s (g.totalUsages (ruleSequence sub order []) targets o) (ruleSequence sub order []) (fun _ => none) [] with
      | error e => rw [hrun] at h; cases h
      | ok out =>
        obtain ⟨env, he⟩ := run_env hg hd binned hasDim hr (ruleSequence sub order []) [] (fun _ => ⟨none, none⟩) (fun _ => none) [] rfl (inv_init _) (by simp) out hrun
        exact ⟨env, (meaning_iff hq).2 he⟩
    obtain ⟨env, he⟩ := this
    obtain ⟨r', h1, h2⟩ := htr env he
    rw [h] at h1; cases h1
    exact ⟨env, he, h2⟩
  · rintro ⟨env, he, h⟩
    obtain ⟨r', h1, h2⟩ := htr env he
    rw [h1, result_unique (fun _ _ => rfl) h h2]

end Scipp.TransformCoords
