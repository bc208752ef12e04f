import Verif.Lemmas.TransformCoords2
/-!
Lemmas about coordinate transformations: evaluating rules.
-/
namespace Scipp.TransformCoords
variable {V : Type}

/-! ### kernels -/

theorem argList_ok {l : List (Option V)} {vs : List V} : argList l = .ok vs ↔ l = vs.map some := by
  induction l generalizing vs with
  | nil => simp only [argList, Except.ok.injEq]; constructor
           · rintro rfl; rfl
           · intro h; symm at h; simpa using h.symm
  | cons a l ih =>
    cases a with
    | none =>
      simp only [argList]
      constructor
      · intro h; cases h
      · intro h; cases vs with
        | nil => simp at h
        | cons v vs => simp at h
    | some v =>
      simp only [argList]
      cases hl : argList l with
      | error e =>
        simp only
        constructor
        · intro h; cases h
        · intro h
          cases vs with
          | nil => simp at h
          | cons w vs =>
            simp only [List.map_cons, List.cons.injEq] at h
            rw [ih.2 h.2] at hl; cases hl
      | ok ws =>
        simp only [Except.ok.injEq]
        have := ih.1 hl
        constructor
        · rintro rfl; rw [this]; rfl
        · intro h
          cases vs with
          | nil => simp at h
          | cons w vs =>
            simp only [List.map_cons, List.cons.injEq, Option.some.injEq] at h
            rw [ih.2 h.2] at hl
            cases hl
            rw [h.1]

theorem call_ok {outs : List Name} {func : List V → Except Err (Output V)} {args : List (Option V)} {d : List (Name × V)} :
    call outs func args = .ok d ↔ ∃ vs, args = vs.map some ∧ KernelDict outs func vs d := by
  unfold call
  cases ha : argList args with
  | error e =>
    simp only
    constructor
    · intro h; cases h
    · rintro ⟨vs, h, -⟩; rw [argList_ok.2 h] at ha; cases ha
  | ok vs =>
    have hvs := argList_ok.1 ha
    have huniq : ∀ ws : List V, args = ws.map some → ws = vs := by
      intro ws h
      have := argList_ok.2 h
      rw [ha] at this; exact (Except.ok.inj this).symm
    simp only
    cases hf : func vs with
    | error e =>
      simp only
      constructor
      · intro h; cases h
      · rintro ⟨ws, h, hk⟩
        obtain rfl := huniq ws h
        rcases hk with hk | ⟨n, v, -, hk, -⟩ <;> (rw [hf] at hk; cases hk)
    | ok o =>
      simp only
      cases o with
      | dict l =>
        simp only [toDict, Except.ok.injEq]
        constructor
        · rintro rfl; exact ⟨vs, hvs, Or.inl hf⟩
        · rintro ⟨ws, h, hk⟩
          obtain rfl := huniq ws h
          rcases hk with hk | ⟨n, v, -, hk, -⟩
          · rw [hf] at hk; cases hk; rfl
          · rw [hf] at hk; cases hk
      | single v =>
        simp only [toDict]
        constructor
        · intro h
          split at h
          · rename_i n
            cases h
            exact ⟨vs, hvs, Or.inr ⟨n, v, rfl, hf, rfl⟩⟩
          · cases h
        · rintro ⟨ws, h, hk⟩
          obtain rfl := huniq ws h
          rcases hk with hk | ⟨n, w, rfl, hk, rfl⟩
          · rw [hf] at hk; cases hk
          · rw [hf] at hk; cases hk; rfl

theorem kernel_nodup {outs : List Name} {func : List V → Except Err (Output V)} {vs : List V} {d : List (Name × V)}
    (hd : ∀ vs d, func vs = .ok (.dict d) → (d.map Prod.fst).Nodup) (h : KernelDict outs func vs d) : (d.map Prod.fst).Nodup := by
  rcases h with h | ⟨n, v, -, -, rfl⟩
  · exact hd _ _ h
  · simp

theorem lookup_isSome {β : Type} {l : List (Name × β)} {n : Name} (h : n ∈ l.map Prod.fst) : ∃ b, l.lookup n = some b := by
  cases hl : l.lookup n with
  | none => exact absurd h (lookup_none hl)
  | some b => exact ⟨b, rfl⟩

theorem lookup_map {β γ : Type} (f : β → γ) (l : List (Name × β)) (n : Name) :
    (l.map (fun p => (p.1, f p.2))).lookup n = (l.lookup n).map f := by
  induction l with
  | nil => rfl
  | cons p l ih =>
    obtain ⟨m, b⟩ := p
    rw [List.map_cons, List.lookup_cons, List.lookup_cons]
    cases n == m
    · exact ih
    · rfl

theorem without_ok {outs : List Name} {d l : List (Name × Coord V)} (h : withoutUnrequested outs d = .ok l) :
    (∀ n ∈ outs, n ∈ d.map Prod.fst) ∧ l.map Prod.fst = outs ∧ ∀ n c, (n, c) ∈ l → d.lookup n = some c := by
  unfold withoutUnrequested at h
  split at h
  · rename_i hall
    cases h
    refine ⟨hall, ?_, ?_⟩
    · clear * - hall
      induction outs with
      | nil => rfl
      | cons n outs ih =>
        obtain ⟨b, hb⟩ := lookup_isSome (hall n List.mem_cons_self)
        rw [List.filterMap_cons, hb]
        simp only [Option.map_some, List.map_cons]
        rw [ih fun m hm => hall m (List.mem_cons_of_mem _ hm)]
    · intro n c hm
      obtain ⟨m, -, h2⟩ := List.mem_filterMap.1 hm
      cases hl : d.lookup m with
      | none => rw [hl] at h2; cases h2
      | some b => rw [hl] at h2; cases h2; exact hl
  · cases h

theorem without_succeeds {outs : List Name} {d : List (Name × Coord V)} (h : ∀ n ∈ outs, n ∈ d.map Prod.fst) : ∃ l, withoutUnrequested outs d = .ok l := by
  unfold withoutUnrequested
  rw [if_pos h]
  exact ⟨_, rfl⟩

theorem override_ok : ∀ (ds outputs : List (Name × Coord V)), (ds.map Prod.fst).Nodup →
    ((∃ l, overrideDense outputs ds = .ok l) ↔ ∀ n ∈ ds.map Prod.fst, n ∈ outputs.map Prod.fst) ∧
    ∀ l, overrideDense outputs ds = .ok l → l.map Prod.fst = outputs.map Prod.fst ∧
      ∀ n, l.lookup n = (outputs.lookup n).map (fun c => match ds.lookup n with | some e => { c with dense := e.dense } | none => c)
  | [], outputs, _ => by
    refine ⟨by simp [overrideDense], ?_⟩
    intro l h
    simp only [overrideDense, Except.ok.injEq] at h
    subst h
    refine ⟨rfl, fun n => ?_⟩
    simp
  | (m, e) :: ds, outputs, hn => by
    simp only [List.map_cons, List.nodup_cons] at hn
    have hkeys : (outputs.map (fun p => if p.1 = m then (p.1, { p.2 with dense := e.dense }) else p)).map Prod.fst = outputs.map Prod.fst := by
      rw [List.map_map]
      apply List.map_congr_left
      intro p _
      simp only [Function.comp]
      split <;> rfl
    have hlook : ∀ n, (outputs.map (fun p => if p.1 = m then (p.1, { p.2 with dense := e.dense }) else p)).lookup n =
        (outputs.lookup n).map (fun c => if n = m then { c with dense := e.dense } else c) := by
      intro n
      clear hkeys
      induction outputs with
      | nil => rfl
      | cons p l ih =>
        obtain ⟨k, b⟩ := p
        rw [List.map_cons]
        by_cases hk : k = m
        · rw [if_pos hk, List.lookup_cons, List.lookup_cons]
          by_cases hnk : n = k
          · subst hnk; subst hk; simp
          · have : (n == k) = false := by simpa using hnk
            rw [this]; exact ih
        · rw [if_neg hk, List.lookup_cons, List.lookup_cons]
          by_cases hnk : n = k
          · subst hnk; simp [hk]
          · have : (n == k) = false := by simpa using hnk
            rw [this]; exact ih
    obtain ⟨i1, i2⟩ := override_ok ds (outputs.map (fun p => if p.1 = m then (p.1, { p.2 with dense := e.dense }) else p)) hn.2
    rw [overrideDense]
    by_cases hm : m ∈ outputs.map Prod.fst
    · rw [if_pos hm]
      refine ⟨?_, ?_⟩
      · rw [i1, hkeys]
        constructor
        · intro h n hn'
          rcases List.mem_cons.1 hn' with rfl | hn'
          · exact hm
          · exact h n hn'
        · intro h n hn'; exact h n (List.mem_cons_of_mem _ hn')
      · intro l hl
        obtain ⟨j1, j2⟩ := i2 l hl
        refine ⟨j1.trans hkeys, fun n => ?_⟩
        rw [j2, hlook, Option.map_map]
        congr 1
        funext c
        simp only [Function.comp, List.lookup_cons]
        by_cases hnm : n = m
        · subst hnm
          have : ds.lookup n = none := by
            cases hl : ds.lookup n with
            | none => rfl
            | some b => exact absurd (List.mem_map.2 ⟨_, lookup_mem hl, rfl⟩) hn.1
          simp [this]
        · have : (n == m) = false := by simpa using hnm
          rw [this]
          simp [hnm]
    · rw [if_neg hm]
      refine ⟨⟨?_, ?_⟩, ?_⟩
      · rintro ⟨l, h⟩; cases h
      · intro h; exact absurd (h m (by simp)) hm
      · intro l h; cases h

/-- The outputs of a call are those of `env`. -/
def OutputsAre (env : Name → Val V) (outs : List Name) (l : List (Name × Coord V)) : Prop :=
  l.map Prod.fst = outs ∧ ∀ n c, (n, c) ∈ l → env n = ⟨c.dense, c.event⟩ ∧ c.aligned = true

theorem any_event {env : Name → Val V} {args : List Name} {cs : List (Coord V)}
    (hcs : cs.map (fun c => (Val.mk c.dense c.event)) = args.map env) :
    (cs.any (fun c => c.event.isSome) = true ↔ ∃ a ∈ args, (env a).event ≠ none) ∧
    (cs.all (fun c => c.dense.isSome) = true ↔ ∀ a ∈ args, (env a).dense ≠ none) ∧
    cs.map (·.dense) = args.map (fun a => (env a).dense) ∧
    cs.map (fun c => if c.event.isSome then c.event else c.dense) = args.map (fun a => if (env a).event = none then (env a).dense else (env a).event) := by
  induction cs generalizing args with
  | nil =>
    cases args with
    | nil => simp
    | cons a args => simp at hcs
  | cons c cs ih =>
    cases args with
    | nil => simp at hcs
    | cons a args =>
      simp only [List.map_cons, List.cons.injEq] at hcs
      obtain ⟨i1, i2, i3, i4⟩ := ih hcs.2
      have e1 : (env a).event = c.event := by rw [← hcs.1]
      have e2 : (env a).dense = c.dense := by rw [← hcs.1]
      refine ⟨?_, ?_, ?_, ?_⟩
      · rw [List.any_cons, Bool.or_eq_true, i1]
        simp [e1, Option.isSome_iff_ne_none]
      · rw [List.all_cons, Bool.and_eq_true, i2]
        simp [e2, Option.isSome_iff_ne_none]
      · simp [i3, e2]
      · rw [List.map_cons, List.map_cons, i4, e1, e2]
        congr 1
        cases c.event <;> simp

theorem compute_iff (binned : V → Bool) (outs args : List Name) (func : List V → Except Err (Output V)) (env : Name → Val V) (cs : List (Coord V))
    (hd : ∀ vs d, func vs = .ok (.dict d) → (d.map Prod.fst).Nodup) (hno : outs.Nodup)
    (hcs : cs.map (fun c => (Val.mk c.dense c.event)) = args.map env) :
    (∃ l, computeOutputs binned outs func cs = .ok l ∧ OutputsAre env outs l) ↔ (Rule.compute outs args func).Holds binned env := by
  obtain ⟨he, hdn, hm1, hm2⟩ := any_event hcs
  have hout : ∀ {l : List (Name × Coord V)} {n : Name}, l.map Prod.fst = outs → n ∈ outs → ∃ c, (n, c) ∈ l := by
    intro l n h1 h2
    rw [← h1] at h2
    obtain ⟨p, hp, rfl⟩ := List.mem_map.1 h2
    exact ⟨p.2, hp⟩
  have hdense : ∀ {vs : List V}, args.map (fun a => (env a).dense) = vs.map some → ∀ a ∈ args, (env a).dense ≠ none := by
    intro vs h a ha hc
    have : (none : Option V) ∈ vs.map some := by rw [← h]; exact List.mem_map.2 ⟨a, ha, hc⟩
    simp at this
  unfold computeOutputs
  dsimp only
  by_cases hev : ∃ a ∈ args, (env a).event ≠ none
  · rw [if_pos (he.2 hev)]
    have hnev : ¬ ∀ a ∈ args, (env a).event = none := by
      obtain ⟨a, ha, h⟩ := hev; exact fun hc => h (hc a ha)
    unfold computeWithEvents
    rw [hm2]
    cases hc : call outs func (args.map (fun a => if (env a).event = none then (env a).dense else (env a).event)) with
    | error e =>
      dsimp only
      constructor
      · rintro ⟨l, h, -⟩; cases h
      · rintro (⟨h, -⟩ | ⟨-, -, vs, d, h1, h2, -⟩ | ⟨-, vs, d, ws, e, h1, h2, -⟩)
        · exact absurd h hnev
        · rw [call_ok.2 ⟨vs, h1, h2⟩] at hc; cases hc
        · rw [call_ok.2 ⟨vs, h1, h2⟩] at hc; cases hc
    | ok d =>
      obtain ⟨vs, hvs, hk⟩ := call_ok.1 hc
      have hnd := kernel_nodup hd hk
      have huniq : ∀ vs' d', args.map (fun a => if (env a).event = none then (env a).dense else (env a).event) = vs'.map some → KernelDict outs func vs' d' →
          d' = d := by
        intro vs' d' h1 h2
        have := call_ok.2 ⟨vs', h1, h2⟩
        rw [hc] at this; exact (Except.ok.inj this).symm
      dsimp only
      have hkeys : (d.map (fun p : Name × V => (p.1, (⟨if binned p.2 then none else some p.2, if binned p.2 then some p.2 else none, true, -1⟩ : Coord V)))).map Prod.fst =
          d.map Prod.fst := by rw [List.map_map]; rfl
      have hlook : ∀ n, (d.map (fun p : Name × V => (p.1, (⟨if binned p.2 then none else some p.2, if binned p.2 then some p.2 else none, true, -1⟩ : Coord V)))).lookup n =
          (d.lookup n).map (fun v => (⟨if binned v then none else some v, if binned v then some v else none, true, -1⟩ : Coord V)) := fun n => lookup_map (fun v => (⟨if binned v then none else some v, if binned v then some v else none, true, -1⟩ : Coord V)) d n
      by_cases had : ∀ a ∈ args, (env a).dense ≠ none
      · rw [if_pos (hdn.2 had)]
        unfold computePureDense
        rw [hm1]
        cases hc2 : call outs func (args.map (fun a => (env a).dense)) with
        | error e =>
          dsimp only
          constructor
          · rintro ⟨l, h, -⟩; cases h
          · rintro (⟨h, -⟩ | ⟨-, ⟨a, ha, h⟩, -⟩ | ⟨-, vs, d, ws, e, -, -, h1, h2, -⟩)
            · exact absurd h hnev
            · exact absurd h (had a ha)
            · rw [call_ok.2 ⟨ws, h1, h2⟩] at hc2; cases hc2
        | ok e =>
          obtain ⟨ws, hws, hk2⟩ := call_ok.1 hc2
          have hnd2 := kernel_nodup hd hk2
          have huniq2 : ∀ vs' d', args.map (fun a => (env a).dense) = vs'.map some → KernelDict outs func vs' d' → d' = e := by
            intro vs' d' h1 h2
            have := call_ok.2 ⟨vs', h1, h2⟩
            rw [hc2] at this; exact (Except.ok.inj this).symm
          dsimp only
          have hkeys2 : (e.map (fun p : Name × V => (p.1, (⟨some p.2, none, true, -1⟩ : Coord V)))).map Prod.fst = e.map Prod.fst := by rw [List.map_map]; rfl
          have hlook2 : ∀ n, (e.map (fun p : Name × V => (p.1, (⟨some p.2, none, true, -1⟩ : Coord V)))).lookup n =
              (e.lookup n).map (fun v => (⟨some v, none, true, -1⟩ : Coord V)) := fun n => lookup_map (fun v => (⟨some v, none, true, -1⟩ : Coord V)) e n
          obtain ⟨o1, o2⟩ := override_ok (e.map (fun p : Name × V => (p.1, (⟨some p.2, none, true, -1⟩ : Coord V))))
            (d.map (fun p : Name × V => (p.1, (⟨if binned p.2 then none else some p.2, if binned p.2 then some p.2 else none, true, -1⟩ : Coord V)))) (by rw [hkeys2]; exact hnd2)
          rw [hkeys, hkeys2] at o1
          -- value of the table at a name
          have hval : ∀ m, overrideDense (d.map (fun p : Name × V => (p.1, (⟨if binned p.2 then none else some p.2, if binned p.2 then some p.2 else none, true, -1⟩ : Coord V))))
              (e.map (fun p : Name × V => (p.1, (⟨some p.2, none, true, -1⟩ : Coord V)))) = .ok m →
              ∀ n v, (n, v) ∈ d → ∃ c, m.lookup n = some c ∧ c.aligned = true ∧ c.event = (if binned v then some v else none) ∧
                ((∃ w, (n, w) ∈ e ∧ c.dense = some w) ∨ n ∉ e.map Prod.fst ∧ c.dense = if binned v then none else some v) := by
            intro m hm n v hv
            rw [(o2 m hm).2, hlook, lookup_of_mem hnd hv, hlook2]
            cases hl : e.lookup n with
            | none => exact ⟨_, rfl, rfl, rfl, Or.inr ⟨lookup_none hl, rfl⟩⟩
            | some w => exact ⟨_, rfl, rfl, rfl, Or.inl ⟨w, lookup_mem hl, rfl⟩⟩
          constructor
          · rintro ⟨l, h, hl1, hl2⟩
            cases ho : overrideDense (d.map (fun p : Name × V => (p.1, (⟨if binned p.2 then none else some p.2, if binned p.2 then some p.2 else none, true, -1⟩ : Coord V))))
              (e.map (fun p : Name × V => (p.1, (⟨some p.2, none, true, -1⟩ : Coord V)))) with
            | error e' => rw [ho] at h; cases h
            | ok m =>
              rw [ho] at h
              dsimp only at h
              obtain ⟨w1, w2, w3⟩ := without_ok h
              refine Or.inr (Or.inr ⟨hev, vs, d, ws, e, hvs, hk, hws, hk2, o1.1 ⟨m, ho⟩, fun n hn => ?_⟩)
              obtain ⟨c, hc'⟩ := hout hl1 hn
              have hm1' := w1 n hn
              rw [(o2 m ho).1, hkeys] at hm1'
              obtain ⟨⟨n', v⟩, hv, rfl⟩ := List.mem_map.1 hm1'
              obtain ⟨c', h1, -, h3, h4⟩ := hval m ho n' v hv
              rw [w3 n' c hc'] at h1
              cases h1
              rw [(hl2 n' c hc').1]
              exact ⟨v, hv, h3, h4⟩
          · rintro (⟨h, -⟩ | ⟨-, ⟨a, ha, h⟩, -⟩ | ⟨-, vs', d', ws', e', h1, h2, h3, h4, h5, h6⟩)
            · exact absurd h hnev
            · exact absurd h (had a ha)
            · obtain rfl := huniq vs' d' h1 h2
              obtain rfl := huniq2 ws' e' h3 h4
              obtain ⟨m, hm⟩ := o1.2 h5
              rw [hm]
              dsimp only
              have hall : ∀ n ∈ outs, n ∈ m.map Prod.fst := by
                intro n hn
                obtain ⟨v, hv, -⟩ := h6 n hn
                rw [(o2 m hm).1, hkeys]
                exact List.mem_map.2 ⟨_, hv, rfl⟩
              obtain ⟨l, hl⟩ := without_succeeds hall
              obtain ⟨-, w2, w3⟩ := without_ok hl
              refine ⟨l, hl, w2, fun n c hnc => ?_⟩
              have hn : n ∈ outs := by rw [← w2]; exact List.mem_map.2 ⟨_, hnc, rfl⟩
              obtain ⟨v, hv, q1, q2⟩ := h6 n hn
              obtain ⟨c', r1, r2, r3, r4⟩ := hval m hm n v hv
              rw [w3 n c hnc] at r1
              cases r1
              refine ⟨?_, r2⟩
              have : (env n).dense = c.dense := by
                rcases q2 with ⟨w, hw, q2⟩ | ⟨hn1, q2⟩
                · rcases r4 with ⟨w', hw', r4⟩ | ⟨hn2, -⟩
                  · have a1 := lookup_of_mem hnd2 hw
                    have a2 := lookup_of_mem hnd2 hw'
                    rw [a1] at a2; cases a2
                    rw [q2, r4]
                  · exact absurd (List.mem_map.2 ⟨_, hw, rfl⟩) hn2
                · rcases r4 with ⟨w', hw', -⟩ | ⟨-, r4⟩
                  · exact absurd (List.mem_map.2 ⟨_, hw', rfl⟩) hn1
                  · rw [q2, r4]
              cases hen : env n with
              | mk dn evn => rw [hen] at this q1; dsimp only at this q1; rw [this, q1, r3]
      · have hfalse : cs.all (fun c => c.dense.isSome) = false := by
          rw [Bool.eq_false_iff]; exact fun h => had (hdn.1 h)
        rw [hfalse, if_neg (by simp)]
        have hex : ∃ a ∈ args, (env a).dense = none := by
          by_contra h; push Not at h; exact had h
        have hval : ∀ n v, (n, v) ∈ d → (d.map (fun p : Name × V => (p.1, (⟨if binned p.2 then none else some p.2, if binned p.2 then some p.2 else none, true, -1⟩ : Coord V)))).lookup n =
            some ⟨if binned v then none else some v, if binned v then some v else none, true, -1⟩ := by
          intro n v hv; rw [hlook, lookup_of_mem hnd hv]; rfl
        constructor
        · rintro ⟨l, h, hl1, hl2⟩
          obtain ⟨w1, w2, w3⟩ := without_ok h
          refine Or.inr (Or.inl ⟨hev, hex, vs, d, hvs, hk, fun n hn => ?_⟩)
          obtain ⟨c, hc'⟩ := hout hl1 hn
          have hm1' := w1 n hn
          rw [hkeys] at hm1'
          obtain ⟨⟨n', v⟩, hv, rfl⟩ := List.mem_map.1 hm1'
          have h1 := hval n' v hv
          rw [w3 n' c hc'] at h1
          cases h1
          rw [(hl2 n' _ hc').1]
          refine ⟨v, hv, ?_⟩
          cases binned v <;> rfl
        · rintro (⟨h, -⟩ | ⟨-, -, vs', d', h1, h2, h3⟩ | ⟨-, vs', d', ws', e', -, -, h3, -⟩)
          · exact absurd h hnev
          · obtain rfl := huniq vs' d' h1 h2
            have hall : ∀ n ∈ outs, n ∈ (d'.map (fun p : Name × V => (p.1, (⟨if binned p.2 then none else some p.2, if binned p.2 then some p.2 else none, true, -1⟩ : Coord V)))).map Prod.fst := by
              intro n hn
              obtain ⟨v, hv, -⟩ := h3 n hn
              rw [hkeys]
              exact List.mem_map.2 ⟨_, hv, rfl⟩
            obtain ⟨l, hl⟩ := without_succeeds hall
            obtain ⟨-, w2, w3⟩ := without_ok hl
            refine ⟨l, hl, w2, fun n c hnc => ?_⟩
            have hn : n ∈ outs := by rw [← w2]; exact List.mem_map.2 ⟨_, hnc, rfl⟩
            obtain ⟨v, hv, q⟩ := h3 n hn
            have r := hval n v hv
            rw [w3 n c hnc] at r
            cases r
            refine ⟨?_, rfl⟩
            rw [q]
            cases binned v <;> rfl
          · exact absurd (hdense h3) had
  · have hfalse : cs.any (fun c => c.event.isSome) = false := by
      rw [Bool.eq_false_iff]; exact fun h => hev (he.1 h)
    rw [hfalse, if_neg (by simp)]
    have hnone : ∀ a ∈ args, (env a).event = none := by
      intro a ha; by_contra h; exact hev ⟨a, ha, h⟩
    by_cases had : ∀ a ∈ args, (env a).dense ≠ none
    · rw [if_pos (hdn.2 had)]
      unfold computePureDense
      rw [hm1]
      cases hc2 : call outs func (args.map (fun a => (env a).dense)) with
      | error e =>
        dsimp only
        constructor
        · rintro ⟨l, h, -⟩; cases h
        · rintro (⟨-, vs, d, h1, h2, -⟩ | ⟨h, -⟩ | ⟨h, -⟩)
          · rw [call_ok.2 ⟨vs, h1, h2⟩] at hc2; cases hc2
          · exact absurd h hev
          · exact absurd h hev
      | ok e =>
        obtain ⟨ws, hws, hk2⟩ := call_ok.1 hc2
        have hnd2 := kernel_nodup hd hk2
        have huniq2 : ∀ vs' d', args.map (fun a => (env a).dense) = vs'.map some → KernelDict outs func vs' d' → d' = e := by
          intro vs' d' h1 h2
          have := call_ok.2 ⟨vs', h1, h2⟩
          rw [hc2] at this; exact (Except.ok.inj this).symm
        dsimp only
        have hkeys2 : (e.map (fun p : Name × V => (p.1, (⟨some p.2, none, true, -1⟩ : Coord V)))).map Prod.fst = e.map Prod.fst := by rw [List.map_map]; rfl
        have hval : ∀ n v, (n, v) ∈ e → (e.map (fun p : Name × V => (p.1, (⟨some p.2, none, true, -1⟩ : Coord V)))).lookup n = some ⟨some v, none, true, -1⟩ := by
          intro n v hv
          have := lookup_map (fun v => (⟨some v, none, true, -1⟩ : Coord V)) e n
          rw [this, lookup_of_mem hnd2 hv]; rfl
        constructor
        · rintro ⟨l, h, hl1, hl2⟩
          obtain ⟨w1, w2, w3⟩ := without_ok h
          refine Or.inl ⟨hnone, ws, e, hws, hk2, fun n hn => ?_⟩
          obtain ⟨c, hc'⟩ := hout hl1 hn
          have hm1' := w1 n hn
          rw [hkeys2] at hm1'
          obtain ⟨⟨n', v⟩, hv, rfl⟩ := List.mem_map.1 hm1'
          have h1 := hval n' v hv
          rw [w3 n' c hc'] at h1
          cases h1
          rw [(hl2 n' _ hc').1]
          exact ⟨v, hv, rfl⟩
        · rintro (⟨-, vs', d', h1, h2, h3⟩ | ⟨h, -⟩ | ⟨h, -⟩)
          · obtain rfl := huniq2 vs' d' h1 h2
            have hall : ∀ n ∈ outs, n ∈ (d'.map (fun p : Name × V => (p.1, (⟨some p.2, none, true, -1⟩ : Coord V)))).map Prod.fst := by
              intro n hn
              obtain ⟨v, hv, -⟩ := h3 n hn
              rw [hkeys2]
              exact List.mem_map.2 ⟨_, hv, rfl⟩
            obtain ⟨l, hl⟩ := without_succeeds hall
            obtain ⟨-, w2, w3⟩ := without_ok hl
            refine ⟨l, hl, w2, fun n c hnc => ?_⟩
            have hn : n ∈ outs := by rw [← w2]; exact List.mem_map.2 ⟨_, hnc, rfl⟩
            obtain ⟨v, hv, q⟩ := h3 n hn
            have r := hval n v hv
            rw [w3 n c hnc] at r
            cases r
            exact ⟨q, rfl⟩
          · exact absurd h hev
          · exact absurd h hev
    · have hfalse : cs.all (fun c => c.dense.isSome) = false := by
        rw [Bool.eq_false_iff]; exact fun h => had (hdn.1 h)
      rw [hfalse, if_neg (by simp)]
      constructor
      · rintro ⟨l, h, -⟩; cases h
      · rintro (⟨-, vs, d, h1, -⟩ | ⟨h, -⟩ | ⟨h, -⟩)
        · exact absurd (hdense h1) had
        · exact absurd h hev
        · exact absurd h hev

/-- Whatever the values, the outputs are those requested, and are aligned. -/
theorem compute_aligned {binned : V → Bool} {outs : List Name} {func : List V → Except Err (Output V)} {cs : List (Coord V)} {l : List (Name × Coord V)}
    (h : computeOutputs binned outs func cs = .ok l) : l.map Prod.fst = outs ∧ ∀ n c, (n, c) ∈ l → c.aligned = true := by
  have hw : ∀ d, computeWithEvents binned outs func cs = .ok d → ∀ n c, (n, c) ∈ d → c.aligned = true := by
    intro d hd n c hc
    unfold computeWithEvents at hd
    split at hd
    · cases hd
    · cases hd
      obtain ⟨p, -, hp⟩ := List.mem_map.1 hc
      cases hp; rfl
  have hp : ∀ d, computePureDense outs func cs = .ok d → ∀ n c, (n, c) ∈ d → c.aligned = true := by
    intro d hd n c hc
    unfold computePureDense at hd
    split at hd
    · cases hd
    · cases hd
      obtain ⟨p, -, hp⟩ := List.mem_map.1 hc
      cases hp; rfl
  have ho : ∀ (ds d m : List (Name × Coord V)), overrideDense d ds = .ok m → (∀ n c, (n, c) ∈ d → c.aligned = true) → ∀ n c, (n, c) ∈ m → c.aligned = true := by
    intro ds
    induction ds with
    | nil => intro d m h1 h2; simp only [overrideDense, Except.ok.injEq] at h1; subst h1; exact h2
    | cons p ds ih =>
      intro d m h1 h2
      obtain ⟨k, e⟩ := p
      rw [overrideDense] at h1
      split at h1
      · refine ih _ m h1 ?_
        intro n c hc
        obtain ⟨⟨n', c'⟩, hq, he⟩ := List.mem_map.1 hc
        dsimp only at he
        split at he
        · cases he; exact h2 _ c' hq
        · cases he; exact h2 n c hq
      · cases h1
  have hfin : ∀ d, withoutUnrequested outs d = .ok l → (∀ n c, (n, c) ∈ d → c.aligned = true) → l.map Prod.fst = outs ∧ ∀ n c, (n, c) ∈ l → c.aligned = true := by
    intro d h1 h2
    obtain ⟨-, w2, w3⟩ := without_ok h1
    exact ⟨w2, fun n c hc => h2 n c (lookup_mem (w3 n c hc))⟩
  unfold computeOutputs at h
  dsimp only at h
  split at h
  · split at h
    · cases h
    · rename_i d hd
      split at h
      · split at h
        · cases h
        · rename_i e he
          split at h
          · cases h
          · rename_i m hm
            exact hfin m h (ho e d m hm (hw d hd))
      · exact hfin d h (hw d hd)
  · split at h
    · split at h
      · cases h
      · rename_i e he
        exact hfin e h (hp e he)
    · cases h

end Scipp.TransformCoords
