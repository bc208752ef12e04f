import Verif.Lemmas.TransformCoords4
/-!
Lemmas about coordinate transformations: running all rules.
-/
namespace Scipp.TransformCoords
variable {V : Type}

theorem addOutputs_ok (hasDim : V → Name → Bool) (s : Source V) (total : Name → Int) : ∀ (l : List (Name × Coord V)) (t : Table V) (dc : List Name),
    (l.map Prod.fst).Nodup → (∀ n c, (n, c) ∈ l → Val.Some ⟨c.dense, c.event⟩) →
    ∃ t' dc', addOutputs hasDim s total l t dc = .ok (t', dc') ∧
      (∀ n c, (n, c) ∈ l → t' n = some { c with usages := total n }) ∧ ∀ n, n ∉ l.map Prod.fst → t' n = t n
  | [], t, dc, _, _ => ⟨t, dc, rfl, by simp, by simp⟩
  | (n, c) :: l, t, dc, hn, hv => by
    simp only [List.map_cons, List.nodup_cons] at hn
    have key : ∀ dc0, ∃ t' dc', addOutputs hasDim s total l (t.add total n c) dc0 = .ok (t', dc') ∧
      (∀ m c', (m, c') ∈ (n, c) :: l → t' m = some { c' with usages := total m }) ∧ ∀ m, m ∉ ((n, c) :: l).map Prod.fst → t' m = t m := by
      intro dc0
      obtain ⟨t', dc', h1, h2, h3⟩ := addOutputs_ok hasDim s total l (t.add total n c) dc0 hn.2 (fun m c' h => hv m c' (List.mem_cons_of_mem _ h))
      refine ⟨t', dc', h1, ?_, ?_⟩
      · intro m c' hm
        rcases List.mem_cons.1 hm with hm | hm
        · cases hm
          rw [h3 n hn.1]
          simp [Table.add]
        · exact h2 m c' hm
      · intro m hm
        simp only [List.map_cons, List.mem_cons, not_or] at hm
        rw [h3 m hm.2]
        simp [Table.add, hm.1]
    rw [addOutputs]
    split
    · have : ∃ b, c.hasDim hasDim n = .ok b := by
        unfold Coord.hasDim
        rcases hv n c List.mem_cons_self with h | h
        · cases hd : c.dense with
          | none => exact absurd hd h
          | some v => exact ⟨_, rfl⟩
        · cases hd : c.dense with
          | some v => exact ⟨_, rfl⟩
          | none =>
            cases he : c.event with
            | none => exact absurd he h
            | some v => exact ⟨_, rfl⟩
      obtain ⟨b, hb⟩ := this
      rw [hb]
      exact key _
    · exact key _

/-- Values of `env` on the outputs and the inputs of a rule are all that matters for its equation. -/
theorem holds_congr {binned : V → Bool} {env env' : Name → Val V} {r : Rule V} (h : ∀ n, n ∈ r.outs ∨ n ∈ r.deps → env' n = env n) :
    r.Holds binned env → r.Holds binned env' := by
  cases r with
  | rename outs k =>
    intro hh n hn
    rw [h n (Or.inl hn), hh n hn, h k (Or.inr (by simp [Rule.deps]))]
  | compute outs args f =>
    have ha : ∀ a ∈ args, env' a = env a := fun a ha => h a (Or.inr ha)
    have ho : ∀ n ∈ outs, env' n = env n := fun n hn => h n (Or.inl hn)
    have m1 : args.map (fun a => (env' a).dense) = args.map (fun a => (env a).dense) := List.map_congr_left fun a h => by rw [ha a h]
    have m2 : args.map (fun a => if (env' a).event = none then (env' a).dense else (env' a).event) =
        args.map (fun a => if (env a).event = none then (env a).dense else (env a).event) := List.map_congr_left fun a h => by rw [ha a h]
    simp only [Rule.Holds]
    rw [m1, m2]
    rintro (⟨h1, vs, d, h2, h3, h4⟩ | ⟨⟨a, h1, h1'⟩, ⟨b, h2, h2'⟩, vs, d, h3, h4, h5⟩ | ⟨⟨a, h1, h1'⟩, vs, d, ws, e, h2, h3, h4, h5, h6, h7⟩)
    · refine Or.inl ⟨fun a hh => by rw [ha a hh]; exact h1 a hh, vs, d, h2, h3, fun n hn => ?_⟩
      rw [ho n hn]; exact h4 n hn
    · refine Or.inr (Or.inl ⟨⟨a, h1, by rw [ha a h1]; exact h1'⟩, ⟨b, h2, by rw [ha b h2]; exact h2'⟩, vs, d, h3, h4, fun n hn => ?_⟩)
      rw [ho n hn]; exact h5 n hn
    · refine Or.inr (Or.inr ⟨⟨a, h1, by rw [ha a h1]; exact h1'⟩, vs, d, ws, e, h2, h3, h4, h5, h6, fun n hn => ?_⟩)
      rw [ho n hn]; exact h7 n hn

theorem eqn_congr {g : Graph V} {binned : V → Bool} {s : Source V} {env env' : Name → Val V} {r : Ref} (h : ∀ n, n ∈ g.outs r ∨ n ∈ g.deps r → env' n = env n) :
    g.Eqn binned s env r → g.Eqn binned s env' r := by
  cases r with
  | fetch n => intro hh; simp only [Graph.Eqn] at hh ⊢; rw [h n (Or.inl (by simp [Graph.outs]))]; exact hh
  | user i =>
    rintro ⟨r, h1, h2⟩
    refine ⟨r, h1, holds_congr (fun n hn => h n ?_) h2⟩
    rcases hn with hn | hn
    · exact Or.inl (mem_outs_user.2 ⟨r, h1, hn⟩)
    · exact Or.inr (mem_deps_user.2 ⟨r, h1, hn⟩)

/-- Outputs of a rule have some data if its inputs have. -/
theorem eqn_some {g : Graph V} {binned : V → Bool} {s : Source V} {env : Name → Val V} {r : Ref} (h : g.Eqn binned s env r)
    (hf : ∀ n, r = .fetch n → s.has n = true) (hdep : ∀ n ∈ g.deps r, (env n).Some) : ∀ n ∈ g.outs r, (env n).Some := by
  intro n hn
  cases r with
  | fetch m =>
    simp only [Graph.outs, List.mem_singleton] at hn
    subst hn
    simp only [Graph.Eqn] at h
    rw [h]
    have := hf n rfl
    unfold Source.has at this
    rw [Bool.or_eq_true] at this
    rcases this with h | h
    · exact Or.inl (Option.isSome_iff_ne_none.1 h)
    · exact Or.inr (Option.isSome_iff_ne_none.1 h)
  | user i =>
    obtain ⟨rule, h1, h2⟩ := h
    obtain ⟨rule', h1', hn⟩ := mem_outs_user.1 hn
    rw [h1] at h1'; cases h1'
    cases rule with
    | rename outs k =>
      rw [h2 n hn]
      exact hdep k (mem_deps_user.2 ⟨_, h1, by simp [Rule.deps]⟩)
    | compute outs args f =>
      rcases h2 with ⟨-, vs, d, -, -, h4⟩ | ⟨-, -, vs, d, -, -, h4⟩ | ⟨-, vs, d, ws, e, -, -, -, -, -, h4⟩
      · obtain ⟨v, -, he⟩ := h4 n hn
        rw [he]; exact Or.inl (by simp)
      · obtain ⟨v, -, he⟩ := h4 n hn
        rw [he]
        cases binned v
        · exact Or.inl (by simp)
        · exact Or.inr (by simp)
      · obtain ⟨v, -, he, hd⟩ := h4 n hn
        rcases hd with ⟨w, -, hd⟩ | ⟨-, hd⟩
        · left; rw [hd]; simp
        · cases hb : binned v
          · left; rw [hd, hb]; simp
          · right; rw [he, hb]; simp

/-- Hypotheses on a sequence of rules together with a split of it. -/
structure RunHyp (g : Graph V) (s : Source V) (sub : Name → Option Ref) (total : Name → Int) (rules : List Ref) : Prop where
  seq : SeqOk g s sub rules
  budget : ∀ n, total n = -1 ∨ (((rules.flatMap g.consumed).count n : Nat) : Int) ≤ total n

theorem outs_nodup {g : Graph V} (hg : g.Good) (r : Ref) : (g.outs r).Nodup := by
  cases r with
  | fetch n => simp [Graph.outs]
  | user i =>
    simp only [Graph.outs]
    split
    · simp
    · rename_i r hr; exact hg.nodup r (List.mem_of_getElem? hr)

section
variable {g : Graph V} {s : Source V} {sub : Name → Option Ref} {total : Name → Int} {rules : List Ref}

theorem outs_disjoint (hq : SeqOk g s sub rules) {pre : List Ref} {r : Ref} {post : List Ref} (h : rules = pre ++ r :: post) {q : Ref} (hqp : q ∈ pre) {n : Name}
    (hn : n ∈ g.outs q) : n ∉ g.outs r := by
  intro hn'
  have h1 := (hq.outs q (by rw [h]; exact List.mem_append_left _ hqp) n).1 hn
  have h2 := (hq.outs r (by rw [h]; simp) n).1 hn'
  rw [h1] at h2; cases h2
  exact hq.nodup pre _ post h hqp

theorem deps_done (hq : SeqOk g s sub rules) {pre : List Ref} {r : Ref} {post : List Ref} (h : rules = pre ++ r :: post) :
    ∀ n ∈ g.deps r, ∃ q ∈ pre, n ∈ g.outs q := by
  intro n hn
  obtain ⟨q, hqp, hqs⟩ := hq.deps pre r post h n hn
  exact ⟨q, hqp, (hq.outs q (by rw [h]; exact List.mem_append_left _ hqp) n).2 hqs⟩

theorem inv_congr {done : List Ref} {uses : List Name} {env env' : Name → Val V} {t : Table V} (hi : Inv g total done uses env t)
    (h : ∀ r ∈ done, ∀ n ∈ g.outs r, env' n = env n) : Inv g total done uses env' t := by
  refine ⟨?_, hi.none, hi.used⟩
  intro r hr n hn
  rw [h r hr n hn]
  exact hi.out r hr n hn

/-- One round of the outer loop, when the equation of the rule holds. -/
theorem rule_step (hg : g.Good) (hd : g.Dicts) (binned : V → Bool) (hasDim : V → Name → Bool) (hr : RunHyp g s sub total rules) {pre : List Ref} {r : Ref} {post : List Ref}
    (h : rules = pre ++ r :: post) {env : Name → Val V} {t : Table V} (hi : Inv g total pre (pre.flatMap g.consumed) env t) (dc : List Name) (he : g.Eqn binned s env r) :
    ∃ l t' t'' dc', g.callRule binned s t r = .ok (l, t') ∧ addOutputs hasDim s total l t' dc = .ok (t'', dc') ∧
      Inv g total (pre ++ [r]) ((pre ++ [r]).flatMap g.consumed) env t'' := by
  have hrm : r ∈ rules := by rw [h]; simp
  have hdep := deps_done hr.seq h
  have hne : g.outs r ≠ [] := by
    obtain ⟨n, hn⟩ := (hr.seq.mem r).1 hrm
    intro hc
    have := (hr.seq.outs r hrm n).2 hn
    rw [hc] at this; cases this
  have hfm : (pre ++ [r]).flatMap g.consumed = pre.flatMap g.consumed ++ g.consumed r := by simp
  have hb : ∀ n ∈ g.consumed r, total n = -1 ∨ (((pre.flatMap g.consumed ++ g.consumed r).count n : Nat) : Int) ≤ total n := by
    intro n _
    rcases hr.budget n with hb | hb
    · exact Or.inl hb
    · right
      rw [h, List.flatMap_append, List.flatMap_cons, ← List.append_assoc, List.count_append] at hb
      push_cast at hb ⊢
      omega
  obtain ⟨l, t', h1, h2, h3⟩ := (call_step hg hd binned s hi r hne hdep hb).1 he
  have hsome : ∀ n ∈ g.outs r, (env n).Some := by
    refine eqn_some he (fun n hn => hr.seq.fetched n (hn ▸ hrm)) ?_
    intro n hn
    obtain ⟨q, hq1, hq2⟩ := hdep n hn
    exact (hi.out q hq1 n hq2).1
  have hkey : ∀ {n : Name}, n ∈ l.map Prod.fst ↔ n ∈ g.outs r := by intro n; rw [h2.1]
  obtain ⟨t'', dc', k1, k2, k3⟩ := addOutputs_ok hasDim s total l t' dc (by rw [h2.1]; exact outs_nodup hg r) (by
    intro n c hc
    rw [← (h2.2 n c hc).1]
    exact hsome n (hkey.1 (List.mem_map.2 ⟨_, hc, rfl⟩)))
  refine ⟨l, t', t'', dc', h1, k1, ?_⟩
  rw [hfm]
  have hnotused : ∀ n ∈ g.outs r, n ∉ pre.flatMap g.consumed ++ g.consumed r := by
    intro n hn hc
    obtain ⟨q, hq1, hq2⟩ := h3.used n hc
    exact outs_disjoint hr.seq h hq1 hq2 hn
  refine ⟨?_, ?_, ?_⟩
  · intro q hq n hn
    rcases List.mem_append.1 hq with hq | hq
    · obtain ⟨o1, c, o2, o3⟩ := h3.out q hq n hn
      refine ⟨o1, c, ?_, o3⟩
      rw [k3 n (fun hc => outs_disjoint hr.seq h hq hn (hkey.1 hc))]
      exact o2
    · rw [List.mem_singleton] at hq
      subst hq
      refine ⟨hsome n hn, ?_⟩
      obtain ⟨⟨n', c⟩, hc, rfl⟩ := List.mem_map.1 (hkey.2 hn)
      refine ⟨_, k2 n' c hc, ?_, ?_, ?_⟩
      · dsimp only
        rw [List.count_eq_zero.2 (hnotused n' hn)]
        split
        · rename_i h0; exact h0
        · simp
      · dsimp only
        rw [(h2.2 n' c hc).2]
        simp only [hnotused n' hn, not_false_eq_true, decide_true, Bool.and_true]
      · intro _
        exact (h2.2 n' c hc).1.symm
  · intro n hn
    rw [k3 n (fun hc => hn r (by simp) (hkey.1 hc))]
    exact h3.none n (fun q hq => hn q (List.mem_append_left _ hq))
  · intro n hn
    obtain ⟨q, hq1, hq2⟩ := h3.used n hn
    exact ⟨q, List.mem_append_left _ hq1, hq2⟩

/-- If all equations hold, all rules run. -/
theorem run_ok (hg : g.Good) (hd : g.Dicts) (binned : V → Bool) (hasDim : V → Name → Bool) (hr : RunHyp g s sub total rules) {env : Name → Val V} :
    ∀ (post pre : List Ref) (t : Table V) (dc : List Name), rules = pre ++ post → Inv g total pre (pre.flatMap g.consumed) env t →
    (∀ r ∈ post, g.Eqn binned s env r) →
    ∃ t' dc', g.runRules binned hasDim s total post t dc = .ok (t', dc') ∧ Inv g total rules (rules.flatMap g.consumed) env t'
  | [], pre, t, dc, h, hi, _ => by
    rw [List.append_nil] at h; subst h
    exact ⟨t, dc, rfl, hi⟩
  | r :: post, pre, t, dc, h, hi, he => by
    obtain ⟨l, t', t'', dc', h1, h2, h3⟩ := rule_step hg hd binned hasDim hr h hi dc (he r List.mem_cons_self)
    obtain ⟨t3, dc3, h4, h5⟩ := run_ok hg hd binned hasDim hr post (pre ++ [r]) t'' dc' (by rw [h]; simp) h3 (fun q hq => he q (List.mem_cons_of_mem _ hq))
    refine ⟨t3, dc3, ?_, h5⟩
    rw [Graph.runRules, h1]
    dsimp only
    rw [h2]
    exact h4

/-- If all rules run, there are values for which all equations hold. -/
theorem run_env (hg : g.Good) (hd : g.Dicts) (binned : V → Bool) (hasDim : V → Name → Bool) (hr : RunHyp g s sub total rules) :
    ∀ (post pre : List Ref) (env : Name → Val V) (t : Table V) (dc : List Name), rules = pre ++ post → Inv g total pre (pre.flatMap g.consumed) env t →
    (∀ r ∈ pre, g.Eqn binned s env r) → ∀ out, g.runRules binned hasDim s total post t dc = .ok out →
    ∃ env', ∀ r ∈ rules, g.Eqn binned s env' r
  | [], pre, env, t, dc, h, hi, he, _, _ => by
    rw [List.append_nil] at h; subst h
    exact ⟨env, he⟩
  | r :: post, pre, env, t, dc, h, hi, he, out, ho => by
    rw [Graph.runRules] at ho
    cases hc : g.callRule binned s t r with
    | error e => rw [hc] at ho; cases ho
    | ok p =>
      obtain ⟨l, t'⟩ := p
      have hrm : r ∈ rules := by rw [h]; simp
      have hne : g.outs r ≠ [] := by
        obtain ⟨n, hn⟩ := (hr.seq.mem r).1 hrm
        intro hc
        have := (hr.seq.outs r hrm n).2 hn
        rw [hc] at this; cases this
      have hb : ∀ n ∈ g.consumed r, total n = -1 ∨ (((pre.flatMap g.consumed ++ g.consumed r).count n : Nat) : Int) ≤ total n := by
        intro n _
        rcases hr.budget n with hb | hb
        · exact Or.inl hb
        · right
          rw [h, List.flatMap_append, List.flatMap_cons, ← List.append_assoc, List.count_append] at hb
          push_cast at hb ⊢
          omega
      have hfst := (call_step hg hd binned s hi r hne (deps_done hr.seq h) hb).2.2 l t' hc
      let env' : Name → Val V := fun n => match l.lookup n with
        | some c => ⟨c.dense, c.event⟩
        | none => env n
      have hagree : ∀ n, n ∉ g.outs r → env' n = env n := by
        intro n hn
        have : l.lookup n = none := by
          cases hl : l.lookup n with
          | none => rfl
          | some c => exact absurd (hfst.1 ▸ List.mem_map.2 ⟨_, lookup_mem hl, rfl⟩) hn
        simp only [env', this]
      have hpre : ∀ q ∈ pre, ∀ n ∈ g.outs q, env' n = env n := fun q hq n hn => hagree n (outs_disjoint hr.seq h hq hn)
      have hi' := inv_congr hi hpre
      have houts : OutsAre g env' r l := by
        refine ⟨hfst.1, fun n c hn => ⟨?_, hfst.2 n c hn⟩⟩
        have : l.lookup n = some c := lookup_of_mem (by rw [hfst.1]; exact outs_nodup hg r) hn
        simp only [env', this]
      have heq := (call_step hg hd binned s hi' r hne (deps_done hr.seq h) hb).2.1 l t' hc houts
      obtain ⟨l2, t2, t3, dc3, h1, h2, h3⟩ := rule_step hg hd binned hasDim hr h hi' dc heq
      rw [hc] at h1; cases h1
      rw [hc] at ho
      dsimp only at ho
      rw [h2] at ho
      dsimp only at ho
      refine run_env hg hd binned hasDim hr post (pre ++ [r]) env' t3 dc3 (by rw [h]; simp) h3 ?_ out ho
      intro q hq
      rcases List.mem_append.1 hq with hq | hq
      · refine eqn_congr ?_ (he q hq)
        intro n hn
        rcases hn with hn | hn
        · exact hpre q hq n hn
        · obtain ⟨a, b, hab⟩ := List.append_of_mem hq
          obtain ⟨q', hq1, hq2⟩ := deps_done hr.seq (show rules = a ++ q :: (b ++ r :: post) by rw [h, hab]; simp) n hn
          exact hpre q' (by rw [hab]; exact List.mem_append_left _ hq1) n hq2
      · rw [List.mem_singleton] at hq; subst hq; exact heq

theorem inv_init (env : Name → Val V) : Inv g total [] [] env (fun _ => none) := ⟨by simp, fun _ _ => rfl, by simp⟩

end

/-- What is consumed is what is counted, if aliases of dropped names have one name. -/
theorem budget {g : Graph V} {s : Source V} {sub : Name → Option Ref} {rules : List Ref} (hq : SeqOk g s sub rules) (targets : List Name) (o : Options)
    (hm : ∀ outs k, Rule.rename outs k ∈ g.rules → outs.length ≤ 1 ∨ ¬ g.Dropped targets o sub k) :
    (∀ n, (sub n).isSome → g.Dropped targets o sub n → ((rules.flatMap g.consumed).count n : Int) = g.totalUsages rules targets o n) ∧
    RunHyp g s sub (g.totalUsages rules targets o) rules := by
  have hdr : ∀ n, g.Dropped targets o sub n → (rules.flatMap g.consumed).count n = (rules.flatMap g.deps).count n := by
    intro n hn
    rw [List.count_flatMap, List.count_flatMap]
    congr 1
    apply List.map_congr_left
    intro r hr
    simp only [Function.comp]
    cases r with
    | fetch m => rfl
    | user i =>
      have hne : g.outs (.user i) ≠ [] := by
        obtain ⟨n, hn⟩ := (hq.mem _).1 hr
        intro hc
        have := (hq.outs _ hr n).2 hn
        rw [hc] at this; cases this
      simp only [Graph.consumed, Graph.deps]
      cases hri : g.rules[i]? with
      | none => rfl
      | some rule =>
        cases rule with
        | compute outs args f => rfl
        | rename outs k =>
          simp only [Rule.deps]
          by_cases hkn : k = n
          · subst hkn
            have : outs ≠ [] := by
              intro hc; apply hne; simp [Graph.outs, hri, Rule.outs, hc]
            rcases hm outs k (List.mem_of_getElem? hri) with h | h
            · match outs, this, h with
              | [a], _, _ => rfl
            · exact absurd hn h
          · have h1 : List.count n (outs.map (fun _ => k)) = 0 := by
              rw [List.count_eq_zero]; intro hc; obtain ⟨-, -, h⟩ := List.mem_map.1 hc; exact hkn h
            have h2 : List.count n [k] = 0 := by
              rw [List.count_eq_zero]; intro hc; exact hkn (List.mem_singleton.1 hc).symm
            rw [h1, h2]
  refine ⟨?_, hq, ?_⟩
  · intro n hn hd
    rcases totalUsages_eq g hq targets o n hn with ⟨-, h, -⟩ | ⟨h, -⟩
    · rw [h, hdr n hd]
    · exact absurd hd h
  · intro n
    by_cases hn : (sub n).isSome
    · rcases totalUsages_eq g hq targets o n hn with ⟨h1, h, -⟩ | ⟨-, h⟩
      · right; rw [h, hdr n h1]; exact Int.le_refl _
      · exact Or.inl h
    · left
      have hnu : n ∉ rules.flatMap g.deps := by
        intro hc
        obtain ⟨r, hr, hd⟩ := List.mem_flatMap.1 hc
        obtain ⟨a, b, hab⟩ := List.append_of_mem hr
        obtain ⟨q, -, hqs⟩ := hq.deps a r b hab n hd
        rw [hqs] at hn; exact hn rfl
      have hno : ∀ r ∈ rules, n ∉ g.outs r := by
        intro r hr hc
        rw [(hq.outs r hr n).1 hc] at hn; exact hn rfl
      have h1 : n ∉ g.inputNames rules := by
        intro hc
        obtain ⟨r, hr, h⟩ := List.mem_flatMap.1 hc
        exact hno r (List.mem_filter.1 hr).1 h
      have h2 : n ∉ g.aliasNames rules := by
        intro hc
        obtain ⟨r, hr, h⟩ := List.mem_flatMap.1 hc
        exact hno r (List.mem_filter.1 hr).1 h
      have h3 : g.countUsages rules n = none := by
        simp [Graph.countUsages, List.count_eq_zero.2 hnu]
      simp only [Graph.totalUsages]
      split_ifs <;> simp [h1, h2, h3, hnu]

end Scipp.TransformCoords
