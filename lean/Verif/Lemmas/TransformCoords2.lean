import Verif.Lemmas.TransformCoords
import Mathlib.Tactic.SplitIfs
/-!
Lemmas about coordinate transformations: running the rules.
-/
namespace Scipp.TransformCoords
variable {V : Type}

/-! ### the sequence of rules -/

theorem ruleSequence_split {sub : Name → Option Ref} : ∀ (order : List Name) (used : List Ref) (pre : List Ref) (r : Ref) (post : List Ref),
    ruleSequence sub order used = pre ++ r :: post →
    ∃ a n b, order = a ++ n :: b ∧ sub n = some r ∧ r ∉ used ∧ r ∉ pre ∧ ∀ m ∈ a, ∀ r', sub m = some r' → r' ∈ used ∨ r' ∈ pre
  | [], used, pre, r, post, h => by simp [ruleSequence] at h
  | m :: ns, used, pre, r, post, h => by
    rw [ruleSequence] at h
    cases hm : sub m with
    | none =>
      rw [hm] at h
      obtain ⟨a, n, b, h1, h2, h3, h4, h5⟩ := ruleSequence_split ns used pre r post h
      refine ⟨m :: a, n, b, by rw [h1]; rfl, h2, h3, h4, ?_⟩
      intro x hx r' hr'
      rcases List.mem_cons.1 hx with rfl | hx
      · rw [hm] at hr'; cases hr'
      · exact h5 x hx r' hr'
    | some q =>
      rw [hm] at h
      dsimp only at h
      split at h
      · rename_i hq
        obtain ⟨a, n, b, h1, h2, h3, h4, h5⟩ := ruleSequence_split ns used pre r post h
        refine ⟨m :: a, n, b, by rw [h1]; rfl, h2, h3, h4, ?_⟩
        intro x hx r' hr'
        rcases List.mem_cons.1 hx with rfl | hx
        · rw [hm] at hr'; cases hr'; exact Or.inl hq
        · exact h5 x hx r' hr'
      · rename_i hq
        cases pre with
        | nil =>
          simp only [List.nil_append, List.cons.injEq] at h
          obtain ⟨rfl, h⟩ := h
          exact ⟨[], m, ns, rfl, hm, hq, by simp, by simp⟩
        | cons p pre =>
          simp only [List.cons_append, List.cons.injEq] at h
          obtain ⟨rfl, h⟩ := h
          obtain ⟨a, n, b, h1, h2, h3, h4, h5⟩ := ruleSequence_split ns (q :: used) pre r post h
          have hrq : r ≠ q := fun he => h3 (he ▸ List.mem_cons_self)
          refine ⟨m :: a, n, b, by rw [h1]; rfl, h2, fun hu => h3 (List.mem_cons_of_mem _ hu), ?_, ?_⟩
          · intro hc
            rcases List.mem_cons.1 hc with he | hc
            · exact hrq he
            · exact h4 hc
          · intro x hx r' hr'
            rcases List.mem_cons.1 hx with rfl | hx
            · rw [hm] at hr'; cases hr'; exact Or.inr List.mem_cons_self
            · rcases h5 x hx r' hr' with h | h
              · rcases List.mem_cons.1 h with rfl | h
                · exact Or.inr List.mem_cons_self
                · exact Or.inl h
              · exact Or.inr (List.mem_cons_of_mem _ h)

theorem mem_ruleSequence {sub : Name → Option Ref} : ∀ (order : List Name) (used : List Ref) (n : Name) (r : Ref),
    n ∈ order → sub n = some r → r ∈ used ∨ r ∈ ruleSequence sub order used
  | [], used, n, r, h, _ => by simp at h
  | m :: ns, used, n, r, h, hr => by
    rw [ruleSequence]
    rcases List.mem_cons.1 h with rfl | h
    · rw [hr]
      dsimp only
      split
      · rename_i hu; exact Or.inl hu
      · exact Or.inr List.mem_cons_self
    · cases hm : sub m with
      | none => exact mem_ruleSequence ns used n r h hr
      | some q =>
        dsimp only
        split
        · exact mem_ruleSequence ns used n r h hr
        · rcases mem_ruleSequence ns (q :: used) n r h hr with h | h
          · rcases List.mem_cons.1 h with rfl | h
            · exact Or.inr List.mem_cons_self
            · exact Or.inl h
          · exact Or.inr (List.mem_cons_of_mem _ h)

/-- What the rest of the proof needs to know about the sequence of rules. -/
structure SeqOk (g : Graph V) (s : Source V) (sub : Name → Option Ref) (rules : List Ref) : Prop where
  nodup : ∀ pre r post, rules = pre ++ r :: post → r ∉ pre
  mem : ∀ r, r ∈ rules ↔ ∃ n, sub n = some r
  outs : ∀ r ∈ rules, ∀ n, n ∈ g.outs r ↔ sub n = some r
  deps : ∀ pre r post, rules = pre ++ r :: post → ∀ d ∈ g.deps r, ∃ q ∈ pre, sub d = some q
  fetched : ∀ n, Ref.fetch n ∈ rules → s.has n = true

theorem seq_ok {g : Graph V} {s : Source V} {targets : List Name} {sub : Name → Option Ref} {order : List Name}
    (hs : g.IsSubgraph s targets sub) (ht : g.Topological sub order) : SeqOk g s sub (ruleSequence sub order []) := by
  have hmem : ∀ r, r ∈ ruleSequence sub order [] ↔ ∃ n, sub n = some r := by
    intro r
    constructor
    · intro h
      obtain ⟨pre, post, hp⟩ := List.append_of_mem h
      obtain ⟨a, n, b, -, h2, -⟩ := ruleSequence_split order [] pre r post hp
      exact ⟨n, h2⟩
    · rintro ⟨n, hn⟩
      exact (mem_ruleSequence order [] n r ((ht.2.1 n).2 (by rw [hn]; rfl)) hn).resolve_left (by simp)
  refine ⟨?_, hmem, ?_, ?_, ?_⟩
  · intro pre r post h
    obtain ⟨a, n, b, -, -, -, h4, -⟩ := ruleSequence_split order [] pre r post h
    exact h4
  · intro r hr n
    obtain ⟨m, hm⟩ := (hmem r).1 hr
    cases r with
    | fetch k =>
      obtain ⟨rfl, -⟩ := (hs.2 m k).1 hm
      simp only [Graph.outs, List.mem_singleton]
      constructor
      · rintro rfl; exact hm
      · intro h; exact ((hs.2 n k).1 h).1.symm
    | user i =>
      rw [mem_outs_user, hs.1]
      exact ⟨fun h => ⟨((hs.1 m i).1 hm).1, h⟩, fun h => h.2⟩
  · intro pre r post h d hd
    obtain ⟨a, n, b, h1, h2, -, -, h5⟩ := ruleSequence_split order [] pre r post h
    have hda := ht.2.2 a n b r h1 h2 d hd
    have hso : (sub d).isSome := (ht.2.1 d).1 (by rw [h1]; exact List.mem_append_left _ hda)
    obtain ⟨q, hq⟩ := Option.isSome_iff_exists.1 hso
    exact ⟨q, (h5 d hda q hq).resolve_left (by simp), hq⟩
  · intro n hn
    obtain ⟨m, hm⟩ := (hmem _).1 hn
    obtain ⟨rfl, -, h, -⟩ := (hs.2 m n).1 hm
    exact h

/-! ### usage counts -/

theorem totalUsages_eq (g : Graph V) {s : Source V} {sub : Name → Option Ref} {rules : List Ref} (hq : SeqOk g s sub rules) (targets : List Name) (o : Options)
    (n : Name) (hn : (sub n).isSome) :
    (g.Dropped targets o sub n ∧ g.totalUsages rules targets o n = ((rules.flatMap g.deps).count n : Int) ∧ 0 < (rules.flatMap g.deps).count n) ∨
    (¬ g.Dropped targets o sub n ∧ g.totalUsages rules targets o n = -1) := by
  have hused : n ∈ rules.flatMap g.deps ↔ ∃ m r, sub m = some r ∧ n ∈ g.deps r := by
    rw [List.mem_flatMap]
    constructor
    · rintro ⟨r, hr, hd⟩
      obtain ⟨m, hm⟩ := (hq.mem r).1 hr
      exact ⟨m, r, hm, hd⟩
    · rintro ⟨m, r, hm, hd⟩
      exact ⟨r, (hq.mem r).2 ⟨m, hm⟩, hd⟩
  have hin : n ∈ g.inputNames rules ↔ ∃ m, sub n = some (.fetch m) := by
    unfold Graph.inputNames
    rw [List.mem_flatMap]
    constructor
    · rintro ⟨r, hr, hno⟩
      obtain ⟨h1, h2⟩ := List.mem_filter.1 hr
      cases r with
      | fetch m => exact ⟨m, (hq.outs _ h1 n).1 hno⟩
      | user i => simp at h2
    · rintro ⟨m, hm⟩
      have hr := (hq.mem (.fetch m)).2 ⟨n, hm⟩
      exact ⟨.fetch m, List.mem_filter.2 ⟨hr, rfl⟩, (hq.outs _ hr n).2 hm⟩
  have hal : n ∈ g.aliasNames rules ↔ ∃ i outs k, sub n = some (.user i) ∧ g.rules[i]? = some (.rename outs k) := by
    unfold Graph.aliasNames
    rw [List.mem_flatMap]
    constructor
    · rintro ⟨r, hr, hno⟩
      obtain ⟨h1, h2⟩ := List.mem_filter.1 hr
      cases r with
      | fetch m => simp [Graph.isRename] at h2
      | user i =>
        simp only [Graph.isRename] at h2
        split at h2
        · rename_i outs k he
          exact ⟨i, outs, k, (hq.outs _ h1 n).1 hno, he⟩
        · cases h2
    · rintro ⟨i, outs, k, hm, he⟩
      have hr := (hq.mem (.user i)).2 ⟨n, hm⟩
      exact ⟨.user i, List.mem_filter.2 ⟨hr, by simp [Graph.isRename, he]⟩, (hq.outs _ hr n).2 hm⟩
  have hkind : (∃ m, sub n = some (.fetch m)) ∨ (∃ i outs k, sub n = some (.user i) ∧ g.rules[i]? = some (.rename outs k)) ∨
      ∃ i outs args f, sub n = some (.user i) ∧ g.rules[i]? = some (.compute outs args f) := by
    obtain ⟨ref, hr⟩ := Option.isSome_iff_exists.1 hn
    cases ref with
    | fetch m => exact Or.inl ⟨m, hr⟩
    | user i =>
      right
      have h1 := (hq.outs _ ((hq.mem _).2 ⟨n, hr⟩) n).2 hr
      obtain ⟨r, hri, -⟩ := mem_outs_user.1 h1
      cases r with
      | rename outs k => exact Or.inl ⟨i, outs, k, hr, hri⟩
      | compute outs args f => exact Or.inr ⟨i, outs, args, f, hr, hri⟩
  have hcount : (rules.flatMap g.deps).count n = 0 ↔ n ∉ rules.flatMap g.deps := List.count_eq_zero
  have hc0 : n ∉ rules.flatMap g.deps → g.countUsages rules n = none := by
    intro h; simp [Graph.countUsages, hcount.2 h]
  have hc1 : n ∈ rules.flatMap g.deps → g.countUsages rules n = some ((rules.flatMap g.deps).count n : Int) := by
    intro h
    have : (rules.flatMap g.deps).count n ≠ 0 := fun h0 => hcount.1 h0 h
    simp [Graph.countUsages, this]
  have hpos : n ∈ rules.flatMap g.deps → 0 < (rules.flatMap g.deps).count n := fun h => List.count_pos_iff.2 h
  by_cases htg : n ∈ targets
  · right
    exact ⟨fun h => h.1 htg, by simp [Graph.totalUsages, htg]⟩
  by_cases hu : n ∈ rules.flatMap g.deps
  swap
  · right
    refine ⟨fun h => hu (hused.2 h.2.1), ?_⟩
    simp only [Graph.totalUsages, htg, if_false]
    have := hc0 hu
    split_ifs <;> (try simp only [this]) <;> (try split_ifs) <;> rfl
  rcases hkind with hk | hk | hk
  · have hnal : n ∉ g.aliasNames rules := by
      rw [hal]; rintro ⟨i, outs, k, h1, -⟩; obtain ⟨m, hm⟩ := hk; rw [hm] at h1; cases h1
    have hii := hin.2 hk
    by_cases ho : o.keepInputs = true
    · right
      refine ⟨?_, ?_⟩
      · rintro ⟨-, -, ⟨m, -, h⟩ | ⟨i, outs, k, h, -⟩ | ⟨i, outs, args, f, h, -⟩⟩
        · rw [ho] at h; cases h
        · obtain ⟨m, hm⟩ := hk; rw [hm] at h; cases h
        · obtain ⟨m, hm⟩ := hk; rw [hm] at h; cases h
      · simp only [Graph.totalUsages, htg, if_false, ho, if_true]
        split_ifs <;> simp [hii, hnal, htg]
    · left
      have ho' : o.keepInputs = false := by simpa using ho
      refine ⟨⟨htg, hused.1 hu, Or.inl ?_⟩, ?_, hpos hu⟩
      · obtain ⟨m, hm⟩ := hk; exact ⟨m, hm, ho'⟩
      · simp only [Graph.totalUsages, htg, if_false, ho', Bool.false_eq_true]
        split_ifs <;> simp [hii, hnal, htg, hc1 hu]
  · have hni : n ∉ g.inputNames rules := by
      rw [hin]; rintro ⟨m, h1⟩; obtain ⟨i, outs, k, hm, -⟩ := hk; rw [hm] at h1; cases h1
    have hii := hal.2 hk
    by_cases ho : o.keepAliases = true
    · right
      refine ⟨?_, ?_⟩
      · obtain ⟨i, outs, k, hm, hr⟩ := hk
        rintro ⟨-, -, ⟨m, h, -⟩ | ⟨i, outs, k, -, -, h⟩ | ⟨i', outs', args, f, h, h', -⟩⟩
        · rw [hm] at h; cases h
        · rw [ho] at h; cases h
        · rw [hm] at h; cases h; rw [hr] at h'; cases h'
      · simp only [Graph.totalUsages, htg, if_false, ho, if_true]
        simp [hii, htg]
    · left
      have ho' : o.keepAliases = false := by simpa using ho
      refine ⟨⟨htg, hused.1 hu, Or.inr (Or.inl ?_)⟩, ?_, hpos hu⟩
      · obtain ⟨i, outs, k, hm, hr⟩ := hk; exact ⟨i, outs, k, hm, hr, ho'⟩
      · simp only [Graph.totalUsages, htg, if_false, ho', Bool.false_eq_true]
        split_ifs <;> simp [hii, hni, htg, hc1 hu]
  · have hni : n ∉ g.inputNames rules := by
      rw [hin]; rintro ⟨m, h1⟩; obtain ⟨i, outs, args, f, hm, -⟩ := hk; rw [hm] at h1; cases h1
    have hnal : n ∉ g.aliasNames rules := by
      rw [hal]; rintro ⟨i, outs, k, h1, h2⟩; obtain ⟨i', outs', args, f, hm, hr⟩ := hk; rw [hm] at h1; cases h1; rw [hr] at h2; cases h2
    by_cases ho : o.keepIntermediate = true
    · right
      refine ⟨?_, ?_⟩
      · obtain ⟨i, outs, args, f, hm, hr⟩ := hk
        rintro ⟨-, -, ⟨m, h, -⟩ | ⟨i', outs', k, h, h', -⟩ | ⟨i', outs', args, f, -, -, h⟩⟩
        · rw [hm] at h; cases h
        · rw [hm] at h; cases h; rw [hr] at h'; cases h'
        · rw [ho] at h; cases h
      · simp only [Graph.totalUsages, htg, if_false, ho, if_true]
        split_ifs <;> simp [hni, hnal, hu]
    · left
      have ho' : o.keepIntermediate = false := by simpa using ho
      refine ⟨⟨htg, hused.1 hu, Or.inr (Or.inr ?_)⟩, ?_, hpos hu⟩
      · obtain ⟨i, outs, args, f, hm, hr⟩ := hk; exact ⟨i, outs, args, f, hm, hr, ho'⟩
      · simp only [Graph.totalUsages, htg, if_false, ho', Bool.false_eq_true]
        split_ifs <;> simp [hni, hnal, hc1 hu]

end Scipp.TransformCoords
