import Verif.Lemmas.TransformDims
/-!
C107: renaming of dims by coordinate transformations.
-/
namespace Scipp.Props
open Scipp Scipp.TransformDims

/-- The loop ends: with enough rounds the names are found, and more rounds change nothing. -/
theorem C107_ends {g : Dag} {order : List Name} (ht : g.Topological order) (dims : List Name) (hd : ∀ d ∈ dims, d ∈ g.nodes) :
    ∃ rounds names, ∀ k, rounds ≤ k → g.nameChanges dims k order = .ok names := by
  obtain ⟨K, c, h⟩ := colorAll_ends (dims := dims) ht dims hd
  refine ⟨K, fun dim => if dim ∈ dims then order.reverse.find? (fun n => fullColor dims c n dim) else none, fun k hk => ?_⟩
  unfold Dag.nameChanges
  rw [h k hk]

/-- Every dim-coord gets a name (perhaps its own), and only dim-coords do; a name is given only to a dim whose coord it is computed from; different dims get different
names; and a dim is not renamed to another dim-coord. -/
theorem C107_names {g : Dag} {order : List Name} (ht : g.Topological order) (dims : List Name) (hd : ∀ d ∈ dims, d ∈ g.nodes) {rounds : Nat} {names : Name → Option Name}
    (h : g.nameChanges dims rounds order = .ok names) :
    (∀ d, d ∈ dims ↔ names d ≠ none) ∧ (∀ d n, names d = some n → n ∈ g.nodes ∧ g.From d n) ∧ (∀ d d' n, names d = some n → names d' = some n → d = d') ∧
    ∀ d n, names d = some n → n ∈ dims → n = d := by
  unfold Dag.nameChanges at h
  split at h
  · cases h
  · rename_i colors hc
    cases h
    have hcol := colorAll_get dims colors hc
    have hget : ∀ d n, (if d ∈ dims then order.reverse.find? (fun n => fullColor dims colors n d) else none) = some n →
        d ∈ dims ∧ n ∈ order ∧ colors d n = 1 ∧ ∀ d' ∈ dims, d' ≠ d → colors d' n ≠ 1 := by
      intro d n h
      split at h
      · rename_i hm
        obtain ⟨h1, h2, -⟩ := (find_last ht.2.1).1 h
        exact ⟨hm, h1, (fullColor_iff hm).1 h2⟩
      · cases h
    refine ⟨?_, ?_, ?_, ?_⟩
    · intro d
      constructor
      · intro hm
        dsimp only
        rw [if_pos hm, Ne, List.find?_eq_none]
        intro hall
        apply hall d (List.mem_reverse.2 ((ht.2.2.1 d).2 (hd d hm)))
        rw [fullColor_iff hm]
        refine ⟨by rw [(colorDim_sound hm (hcol d hm)).2 d hm, if_pos rfl], ?_⟩
        intro d' hd' hne
        rw [(colorDim_sound hd' (hcol d' hd')).2 d hm, if_neg (fun h => hne h.symm)]
        norm_num
      · intro hne
        by_contra hc
        exact hne (by dsimp only; rw [if_neg hc])
    · intro d n hn
      obtain ⟨h1, h2, h3, -⟩ := hget d n hn
      exact ⟨(ht.2.2.1 n).1 h2, (colorDim_sound h1 (hcol d h1)).1 n (by rw [h3]; norm_num)⟩
    · intro d d' n hn hn'
      obtain ⟨-, -, -, h4⟩ := hget d n hn
      obtain ⟨k1, -, k3, -⟩ := hget d' n hn'
      by_contra hne
      exact h4 d' k1 (fun h => hne h.symm) k3
    · intro d n hn hnd
      obtain ⟨h1, -, h3, -⟩ := hget d n hn
      rw [(colorDim_sound h1 (hcol d h1)).2 n hnd] at h3
      by_contra hne
      rw [if_neg hne] at h3
      norm_num at h3

/-- If what is computed from each dim-coord is a tree, the new name is the documented one: the farthest node that can be uniquely associated with the dim. In particular it
does not depend on the topological order. Partial: nothing like it holds if a node is reached in two ways, see `C107_wrong_ambiguous` and `C107_wrong_after_cycle`. -/
theorem C107_tree_partial {g : Dag} {order : List Name} (ht : g.Topological order) (dims : List Name) (hd : ∀ d ∈ dims, d ∈ g.nodes) (hT : ∀ d ∈ dims, g.Tree d) {rounds : Nat}
    {names : Name → Option Name} (h : g.nameChanges dims rounds order = .ok names) (d : Name) (hdd : d ∈ dims) (n : Name) :
    names d = some n ↔ g.NewName dims d n := by
  have hnone := (C107_names ht dims hd h).1 d
  unfold Dag.nameChanges at h
  split at h
  · cases h
  · rename_i colors hc
    cases h
    have hcol := colorAll_get dims colors hc
    have hone : ∀ d ∈ dims, ∀ n, colors d n = 1 ↔ g.Chain dims d n := fun d hd n => tree_color ht hd (hT d hd) (hcol d hd) n
    have hfull : ∀ n, fullColor dims colors n d = true ↔ g.Chain dims d n ∧ ∀ d' ∈ dims, d' ≠ d → ¬ g.Chain dims d' n := by
      intro n
      rw [fullColor_iff hdd, hone d hdd]
      constructor
      · rintro ⟨h1, h2⟩; exact ⟨h1, fun d' k1 k2 k3 => h2 d' k1 k2 ((hone d' k1 n).2 k3)⟩
      · rintro ⟨h1, h2⟩; exact ⟨h1, fun d' k1 k2 k3 => h2 d' k1 k2 ((hone d' k1 n).1 k3)⟩
    dsimp only at hnone ⊢
    rw [if_pos hdd] at hnone ⊢
    have hmem : ∀ n, g.Chain dims d n → n ∈ order := by
      intro n hn
      rw [ht.2.2.1]
      cases hn with
      | self => exact hd d hdd
      | step _ he _ _ => exact he.1
    have hfwd : ∀ n, order.reverse.find? (fun n => fullColor dims colors n d) = some n → g.NewName dims d n ∧ ∀ m ∈ order, fullColor dims colors m d = true → order.idxOf m ≤ order.idxOf n := by
      intro n h
      obtain ⟨h1, h2, h3⟩ := (find_last ht.2.1).1 h
      obtain ⟨k1, k2⟩ := (hfull n).1 h2
      refine ⟨⟨k1, k2, ?_⟩, h3⟩
      intro c he hu hcd
      by_contra hno
      have hcc : g.Chain dims d c := .step k1 he hu hcd
      have := h3 c (hmem c hcc) ((hfull c).2 ⟨hcc, fun d' e1 e2 e3 => hno ⟨d', e1, e2, e3⟩⟩)
      have := edge_lt ht he
      omega
    constructor
    · intro h; exact (hfwd n h).1
    · rintro ⟨h1, h2, h3⟩
      cases hm : order.reverse.find? (fun n => fullColor dims colors n d) with
      | none => exact absurd hm (hnone.1 hdd)
      | some m =>
        obtain ⟨⟨k1, k2, k3⟩, k4⟩ := hfwd m hm
        have hle := k4 n (hmem n h1) ((hfull n).2 ⟨h1, h2⟩)
        rcases chain_linear h1 k1 with hc | hc
        · rcases chain_head hc with rfl | ⟨c, e1, e2, e3, e4⟩
          · rfl
          · exfalso
            obtain ⟨d', f1, f2, f3⟩ := h3 c e1 e2 e3
            exact k2 d' f1 f2 (chain_trans f3 e4)
        · rcases chain_lt ht hc with rfl | hlt
          · rfl
          · omega

/-! ### cases meeting the hypotheses -/

/-- Dims x, y, z, w = 0, 1, 2, 3; 4 = f(x), 5 = f(4), 6 = f(y, z), 7, 8 = f(w). -/
abbrev exDag : Dag := ⟨[0, 1, 2, 3, 4, 5, 6, 7, 8], fun n => match n with | 4 => [0] | 5 => [4] | 6 => [1, 2] | 7 => [3] | 8 => [3] | _ => []⟩

theorem exDagTopological {g : Dag} {order : List Name} (h0 : g.nodes.Nodup) (h1 : order.Nodup) (h2 : order.Perm g.nodes)
    (h : ∀ i : Fin order.length, (g.deps order[i]).all (fun d => decide (d ∈ order.take i)) = true) : g.Topological order := by
  refine ⟨h0, h1, fun n => h2.mem_iff, ?_⟩
  intro pre n post ho d hd
  subst ho
  have hi : pre.length < (pre ++ n :: post).length := by simp
  have := h ⟨pre.length, hi⟩
  have hg : (pre ++ n :: post)[(⟨pre.length, hi⟩ : Fin _)] = n := by simp
  rw [hg, List.all_eq_true] at this
  simpa using this d hd

example : exDag.Topological [3, 1, 2, 0, 4, 6, 5, 8, 7] := exDagTopological (by decide) (by decide) (by decide) (by decide)

/-- A tree if no two dependencies of a node are computed from the dim. -/
theorem exTree {g : Dag} {d : Name} (F : List Name) (h0 : d ∈ F) (h1 : ∀ n ∈ F, ∀ c ∈ g.nodes, n ∈ g.deps c → c ∈ F)
    (h2 : ∀ c ∈ g.nodes, ∀ p ∈ g.deps c, ∀ q ∈ g.deps c, p ∈ F → q ∈ F → p = q) : g.Tree d := by
  have hF : ∀ n, g.From d n → n ∈ F := by
    intro n hn
    induction hn with
    | self => exact h0
    | step _ he ih => exact h1 _ ih _ he.1 he.2
  intro n p q hp hq hpn hqn
  exact h2 n hpn.1 p hpn.2 q hqn.2 (hF p hp) (hF q hq)

example : ∀ d ∈ [0, 1, 2, 3], exDag.Tree d := by
  intro d hd
  simp only [List.mem_cons, List.not_mem_nil, or_false] at hd
  rcases hd with rfl | rfl | rfl | rfl
  · exact exTree [0, 4, 5] (by decide) (by decide) (by decide)
  · exact exTree [1, 6] (by decide) (by decide) (by decide)
  · exact exTree [2, 6] (by decide) (by decide) (by decide)
  · exact exTree [3, 7, 8] (by decide) (by decide) (by decide)
/-- x is renamed to 5; y and z, which are merged, and w, which is split, are not renamed. -/
example : (exDag.nameChanges [0, 1, 2, 3] 20 [3, 1, 2, 0, 4, 6, 5, 8, 7]).map (fun f => (List.range 5).map f) = .ok [some 5, some 1, some 2, some 3, none] := by decide +kernel
/-- The documented cycle: 1, 2 = f(0), 3 = f(1, 2). -/
example : ((⟨[0, 1, 2, 3], fun n => match n with | 1 => [0] | 2 => [0] | 3 => [1, 2] | _ => []⟩ : Dag).nameChanges [0] 20 [0, 1, 2, 3]).map (fun f => f 0) = .ok (some 3) := by
  decide +kernel

/-! ### where the documented rules fail -/

/-- Nodes below a cycle get too much color, since the loop visits them once per path: 1, 2 = f(0), 3 = f(1, 2), 4 = f(3). Node 3 is associated with the dim 0 and has only one
child, so the documented name is 4 (rule 1), but the dim is renamed to 3. -/
theorem C107_wrong_after_cycle : ∃ (g : Dag) (order : List Name), g.Topological order ∧ g.Chain [0] 3 4 ∧
    ∀ k, 10 ≤ k → (g.nameChanges [0] k order).map (fun f => f 0) = .ok (some 3) := by
  refine ⟨⟨[0, 1, 2, 3, 4], fun n => match n with | 1 => [0] | 2 => [0] | 3 => [1, 2] | 4 => [3] | _ => []⟩, [0, 1, 2, 3, 4],
    exDagTopological (by decide) (by decide) (by decide) (by decide), .step .self ⟨by decide, by decide⟩ ?_ (by decide), ?_⟩
  · rintro c ⟨h1, h2⟩
    simp only [List.mem_cons, List.not_mem_nil, or_false] at h1
    rcases h1 with rfl | rfl | rfl | rfl | rfl <;> simp at h2 ⊢
  · exact nameChanges_at (by decide +kernel)

/-- A dim is renamed although there are two candidates, and which one is taken depends on the order of the nodes (in Python on the hashes of strings): 1, 2, 3 = f(0), 4 = f(1, 2, 3),
5 = f(4), 6 = f(4). -/
theorem C107_wrong_ambiguous : ∃ (g : Dag) (order order' : List Name), g.Topological order ∧ g.Topological order' ∧
    (¬ ∃ c, g.Edge 4 c ∧ ∀ c', g.Edge 4 c' → c' = c) ∧
    (∀ k, 20 ≤ k → (g.nameChanges [0] k order).map (fun f => f 0) = .ok (some 6)) ∧ ∀ k, 20 ≤ k → (g.nameChanges [0] k order').map (fun f => f 0) = .ok (some 5) := by
  refine ⟨⟨[0, 1, 2, 3, 4, 5, 6], fun n => match n with | 1 => [0] | 2 => [0] | 3 => [0] | 4 => [1, 2, 3] | 5 => [4] | 6 => [4] | _ => []⟩, [0, 1, 2, 3, 4, 5, 6], [0, 1, 2, 3, 4, 6, 5],
    exDagTopological (by decide) (by decide) (by decide) (by decide), exDagTopological (by decide) (by decide) (by decide) (by decide), ?_,
    nameChanges_at (by decide +kernel), nameChanges_at (by decide +kernel)⟩
  rintro ⟨c, -, h⟩
  have h5 := h 5 ⟨by decide, by decide⟩
  have h6 := h 6 ⟨by decide, by decide⟩
  exact absurd (h5.trans h6.symm) (by decide)

end Scipp.Props
