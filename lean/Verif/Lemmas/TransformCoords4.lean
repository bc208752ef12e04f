import Verif.Lemmas.TransformCoords3
/-!
Lemmas about coordinate transformations: the table of coords while the rules run.
-/
namespace Scipp.TransformCoords
variable {V : Type}

/-- Names consumed by a rule, as often as they are consumed. -/
def Graph.consumed (g : Graph V) : Ref → List Name
  | .fetch _ => []
  | .user i => match g.rules[i]? with
    | none => []
    | some (.rename outs k) => outs.map (fun _ => k)
    | some (.compute _ args _) => args

theorem consumed_sub (g : Graph V) (r : Ref) : ∀ n ∈ g.consumed r, n ∈ g.deps r := by
  intro n hn
  cases r with
  | fetch m => simp [Graph.consumed] at hn
  | user i =>
    simp only [Graph.consumed] at hn
    simp only [Graph.deps]
    split at hn
    · simp at hn
    · rename_i outs k he
      rw [he]
      obtain ⟨-, -, rfl⟩ := List.mem_map.1 hn
      simp [Rule.deps]
    · rename_i outs args f he
      rw [he]
      exact hn

/-- The names of a coord have some data. -/
def Val.Some (v : Val V) : Prop := v.dense ≠ none ∨ v.event ≠ none

/-- State of the table after the rules `done`, which consumed `uses`. -/
structure Inv (g : Graph V) (total : Name → Int) (done : List Ref) (uses : List Name) (env : Name → Val V) (t : Table V) : Prop where
  out : ∀ r ∈ done, ∀ n ∈ g.outs r, (env n).Some ∧ ∃ c, t n = some c ∧ c.usages = (if total n = -1 then -1 else total n - uses.count n) ∧
    c.aligned = (!g.isRename r && decide (n ∉ uses)) ∧ (c.usages ≠ 0 → Val.mk c.dense c.event = env n)
  none : ∀ n, (∀ r ∈ done, n ∉ g.outs r) → t n = none
  used : ∀ n ∈ uses, ∃ r ∈ done, n ∈ g.outs r

theorem consume_step {g : Graph V} {total : Name → Int} {done : List Ref} {uses : List Name} {env : Name → Val V} {t : Table V}
    (hi : Inv g total done uses env t) (n : Name) (hn : ∃ r ∈ done, n ∈ g.outs r)
    (hb : total n = -1 ∨ ((uses.count n : Int) + 1 ≤ total n)) :
    ∃ c t', t.consume n = .ok (c, t') ∧ Val.mk c.dense c.event = env n ∧ c.aligned = false ∧ Inv g total done (uses ++ [n]) env t' := by
  obtain ⟨r0, hr0, hn0⟩ := hn
  obtain ⟨hsome, c, hc, hu, ha, hv⟩ := hi.out r0 hr0 n hn0
  have hne : c.usages ≠ 0 := by
    rw [hu]; split
    · decide
    · rename_i h; rcases hb with hb | hb
      · exact absurd hb h
      · omega
  unfold Table.consume
  rw [hc]
  refine ⟨_, _, rfl, hv hne, rfl, ?_⟩
  refine ⟨?_, ?_, ?_⟩
  · intro r hr m hm
    obtain ⟨hs, c', hc', hu', ha', hv'⟩ := hi.out r hr m hm
    refine ⟨hs, ?_⟩
    by_cases hmn : m = n
    · subst hmn
      rw [hc] at hc'; cases hc'
      dsimp only
      rw [if_pos rfl]
      have : (if c.usages > 0 then c.usages - 1 else c.usages) = if total m = -1 then -1 else total m - ((uses ++ [m]).count m : Nat) := by
        rw [List.count_append, List.count_singleton_self]
        split
        · rename_i hp
          rw [hu] at hp ⊢
          split at hp
          · omega
          · rename_i ht; rw [if_neg ht, if_neg ht]; push_cast; omega
        · rename_i hp
          rw [hu] at hp ⊢
          split at hp
          · rename_i ht; rw [if_pos ht, if_pos ht]
          · rename_i ht
            rcases hb with hb | hb
            · exact absurd hb ht
            · omega
      generalize (if c.usages > 0 then c.usages - 1 else c.usages) = u at this ⊢
      have hfalse : decide (m ∉ uses ++ [m]) = false := by simp
      rw [hfalse, Bool.and_false, ← this]
      by_cases h0 : u = 0
      · rw [if_pos h0]
        exact ⟨_, rfl, rfl, rfl, fun h => absurd h0 h⟩
      · rw [if_neg h0]
        exact ⟨_, rfl, rfl, rfl, fun _ => hv hne⟩
    · dsimp only
      rw [if_neg hmn]
      refine ⟨c', hc', ?_, ?_, hv'⟩
      · rw [hu', List.count_append, List.count_singleton]
        have : (n == m) = false := by simpa using fun h : n = m => hmn h.symm
        simp [this]
      · rw [ha']
        congr 1
        simp [hmn]
  · intro m hm
    dsimp only
    have hmn : m ≠ n := by
      rintro rfl
      exact hm r0 hr0 hn0
    rw [if_neg hmn]
    exact hi.none m hm
  · intro m hm
    rcases List.mem_append.1 hm with hm | hm
    · exact hi.used m hm
    · rw [List.mem_singleton] at hm; subst hm; exact ⟨r0, hr0, hn0⟩

theorem consumeAll_step {g : Graph V} {total : Name → Int} {done : List Ref} {env : Name → Val V} : ∀ (args : List Name) (uses : List Name) (t : Table V),
    Inv g total done uses env t → (∀ n ∈ args, ∃ r ∈ done, n ∈ g.outs r) → (∀ n ∈ args, total n = -1 ∨ (((uses ++ args).count n : Nat) : Int) ≤ total n) →
    ∃ cs t', t.consumeAll args = .ok (cs, t') ∧ cs.map (fun c => Val.mk c.dense c.event) = args.map env ∧ (∀ c ∈ cs, c.aligned = false) ∧
      Inv g total done (uses ++ args) env t'
  | [], uses, t, hi, _, _ => ⟨[], t, rfl, rfl, by simp, by simpa using hi⟩
  | n :: args, uses, t, hi, hn, hb => by
    obtain ⟨c, t1, h1, h2, h3, h4⟩ := consume_step hi n (hn n List.mem_cons_self) (by
      rcases hb n List.mem_cons_self with h | h
      · exact Or.inl h
      · right
        rw [List.count_append, List.count_cons_self] at h
        push_cast at h; omega)
    obtain ⟨cs, t2, k1, k2, k3, k4⟩ := consumeAll_step args (uses ++ [n]) t1 h4 (fun m hm => hn m (List.mem_cons_of_mem _ hm)) (by
      intro m hm
      have := hb m (List.mem_cons_of_mem _ hm)
      rwa [List.append_assoc, List.singleton_append])
    refine ⟨c :: cs, t2, ?_, ?_, ?_, ?_⟩
    · rw [Table.consumeAll, h1]; dsimp only; rw [k1]
    · rw [List.map_cons, List.map_cons, k2, h2]
    · intro c' hc'
      rcases List.mem_cons.1 hc' with rfl | hc'
      · exact h3
      · exact k3 c' hc'
    · rw [List.append_assoc, List.singleton_append] at k4; exact k4

/-- The outputs of a rule, with the values of `env`. -/
def OutsAre (g : Graph V) (env : Name → Val V) (r : Ref) (l : List (Name × Coord V)) : Prop :=
  l.map Prod.fst = g.outs r ∧ ∀ n c, (n, c) ∈ l → env n = ⟨c.dense, c.event⟩ ∧ c.aligned = !g.isRename r

/-- The equation of a rule object. -/
def Graph.Eqn (g : Graph V) (binned : V → Bool) (s : Source V) (env : Name → Val V) : Ref → Prop
  | .fetch n => env n = ⟨s.coords n, s.event n⟩
  | .user i => ∃ r, g.rules[i]? = some r ∧ r.Holds binned env

theorem zip_rename {outs : List Name} {cs : List (Coord V)} {k : Name} {env : Name → Val V}
    (h : cs.map (fun c => Val.mk c.dense c.event) = (outs.map (fun _ => k)).map env) :
    (outs.zip cs).map Prod.fst = outs ∧ ∀ n c, (n, c) ∈ outs.zip cs → c ∈ cs ∧ Val.mk c.dense c.event = env k := by
  induction outs generalizing cs with
  | nil => simp
  | cons n outs ih =>
    cases cs with
    | nil => simp at h
    | cons c cs =>
      simp only [List.map_cons, List.cons.injEq] at h
      obtain ⟨i1, i2⟩ := ih h.2
      refine ⟨by simp [i1], ?_⟩
      intro m d hm
      rw [List.zip_cons_cons] at hm
      rcases List.mem_cons.1 hm with hm | hm
      · cases hm; exact ⟨List.mem_cons_self, h.1⟩
      · exact ⟨List.mem_cons_of_mem _ (i2 m d hm).1, (i2 m d hm).2⟩

/-- What calling a rule does: the names are consumed, and the outputs are those of `env` exactly if the equation holds. -/
theorem call_step {g : Graph V} (hg : g.Good) (hd : g.Dicts) (binned : V → Bool) (s : Source V) {total : Name → Int} {done : List Ref} {uses : List Name} {env : Name → Val V}
    {t : Table V} (hi : Inv g total done uses env t) (r : Ref) (hr : (g.outs r) ≠ []) (hdep : ∀ n ∈ g.deps r, ∃ q ∈ done, n ∈ g.outs q)
    (hb : ∀ n ∈ g.consumed r, total n = -1 ∨ (((uses ++ g.consumed r).count n : Nat) : Int) ≤ total n) :
    (g.Eqn binned s env r → ∃ l t', g.callRule binned s t r = .ok (l, t') ∧ OutsAre g env r l ∧ Inv g total done (uses ++ g.consumed r) env t') ∧
    (∀ l t', g.callRule binned s t r = .ok (l, t') → OutsAre g env r l → g.Eqn binned s env r) ∧
    (∀ l t', g.callRule binned s t r = .ok (l, t') → l.map Prod.fst = g.outs r ∧ ∀ n c, (n, c) ∈ l → c.aligned = !g.isRename r) := by
  cases r with
  | fetch n =>
    refine ⟨?_, ?_, ?_⟩
    · intro he
      refine ⟨_, t, rfl, ⟨rfl, ?_⟩, by simpa [Graph.consumed] using hi⟩
      intro m c hm
      rw [List.mem_singleton] at hm
      cases hm
      exact ⟨he, rfl⟩
    · intro l t' h ho
      simp only [Graph.callRule, Except.ok.injEq, Prod.mk.injEq] at h
      obtain ⟨rfl, rfl⟩ := h
      exact (ho.2 n _ List.mem_cons_self).1
    · intro l t' h
      simp only [Graph.callRule, Except.ok.injEq, Prod.mk.injEq] at h
      obtain ⟨rfl, rfl⟩ := h
      refine ⟨rfl, ?_⟩
      intro m c hm
      rw [List.mem_singleton] at hm
      cases hm
      rfl
  | user i =>
    cases hri : g.rules[i]? with
    | none => simp [Graph.outs, hri] at hr
    | some rule =>
      obtain ⟨cs, t', k1, k2, k3, k4⟩ := consumeAll_step (g.consumed (.user i)) uses t hi (fun n hn => hdep n (consumed_sub g _ n hn)) hb
      cases rule with
      | rename outs k =>
        have hcons : g.consumed (.user i) = outs.map (fun _ => k) := by simp [Graph.consumed, hri]
        have houts : g.outs (.user i) = outs := by simp [Graph.outs, hri, Rule.outs]
        have hren : g.isRename (.user i) = true := by simp [Graph.isRename, hri]
        have hcall : g.callRule binned s t (.user i) = .ok (outs.zip cs, t') := by
          rw [hcons] at k1
          simp only [Graph.callRule, hri, k1]
        rw [hcons] at k2
        obtain ⟨z1, z2⟩ := zip_rename k2
        have hal : ∀ n c, (n, c) ∈ outs.zip cs → c.aligned = !g.isRename (.user i) := by
          intro n c hc; rw [hren]; exact k3 c (z2 n c hc).1
        refine ⟨?_, ?_, ?_⟩
        · rintro ⟨rule, h1, h2⟩
          rw [hri] at h1; cases h1
          refine ⟨_, t', hcall, ⟨by rw [houts]; exact z1, fun n c hc => ⟨?_, hal n c hc⟩⟩, k4⟩
          have hn : n ∈ outs := (List.of_mem_zip hc).1
          rw [h2 n hn, ← (z2 n c hc).2]
        · intro l t'' h ho
          rw [hcall] at h
          cases h
          refine ⟨_, hri, ?_⟩
          intro n hn
          have : n ∈ (outs.zip cs).map Prod.fst := by rw [z1]; exact hn
          obtain ⟨⟨n', c⟩, hc, rfl⟩ := List.mem_map.1 this
          rw [(ho.2 n' c hc).1, (z2 n' c hc).2]
        · intro l t'' h
          rw [hcall] at h
          cases h
          exact ⟨by rw [houts]; exact z1, hal⟩
      | compute outs args f =>
        have hmem : Rule.compute outs args f ∈ g.rules := List.mem_of_getElem? hri
        have hcons : g.consumed (.user i) = args := by simp [Graph.consumed, hri]
        have houts : g.outs (.user i) = outs := by simp [Graph.outs, hri, Rule.outs]
        have hren : g.isRename (.user i) = false := by simp [Graph.isRename, hri]
        rw [hcons] at k1 k2
        have hci := compute_iff binned outs args f env cs (hd outs args f hmem) (hg.nodup _ hmem) k2
        have hcall : ∀ l t'', g.callRule binned s t (.user i) = .ok (l, t'') ↔ computeOutputs binned outs f cs = .ok l ∧ t'' = t' := by
          intro l t''
          simp only [Graph.callRule, hri, k1]
          cases computeOutputs binned outs f cs with
          | error e => simp
          | ok l' => simp [eq_comm]
        refine ⟨?_, ?_, ?_⟩
        · rintro ⟨rule, h1, h2⟩
          rw [hri] at h1; cases h1
          obtain ⟨l, hl1, hl2, hl3⟩ := hci.2 h2
          refine ⟨l, t', (hcall l t').2 ⟨hl1, rfl⟩, ⟨by rw [houts]; exact hl2, fun n c hc => ?_⟩, k4⟩
          rw [hren]
          exact hl3 n c hc
        · intro l t'' h ho
          obtain ⟨h1, -⟩ := (hcall l t'').1 h
          refine ⟨_, hri, hci.1 ⟨l, h1, by rw [← houts]; exact ho.1, fun n c hc => ?_⟩⟩
          have := ho.2 n c hc
          rw [hren] at this
          exact this
        · intro l t'' h
          obtain ⟨h1, -⟩ := (hcall l t'').1 h
          rw [houts, hren]
          exact compute_aligned h1

end Scipp.TransformCoords
