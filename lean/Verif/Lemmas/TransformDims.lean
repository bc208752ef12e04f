import Verif.Spec.TransformDims
import Mathlib.Data.List.Basic
import Mathlib.Data.List.Nodup
import Mathlib.Algebra.Order.Ring.Rat
import Mathlib.Algebra.Order.Field.Basic
import Mathlib.Tactic.Linarith
import Mathlib.Tactic.SplitIfs
import Mathlib.Tactic.ByContra
/-!
Lemmas about the renaming of dims by coordinate transformations.
-/
namespace Scipp.TransformDims

theorem mem_children {g : Dag} {n c : Name} : c ∈ g.children n ↔ g.Edge n c := by
  simp [Dag.children, Dag.Edge]

theorem edge_lt {g : Dag} {order : List Name} (ht : g.Topological order) {p c : Name} (h : g.Edge p c) : order.idxOf p < order.idxOf c := by
  obtain ⟨-, hn, hm, hd⟩ := ht
  obtain ⟨pre, post, ho⟩ := List.append_of_mem ((hm c).2 h.1)
  have hp := hd pre c post ho p h.2
  have hc : c ∉ pre := by
    rw [ho] at hn
    intro hc
    exact (List.nodup_append.1 hn).2.2 c hc c List.mem_cons_self rfl
  rw [ho, List.idxOf_append_of_mem hp, List.idxOf_append_of_notMem hc]
  have := List.idxOf_lt_length_iff.2 hp
  omega

theorem from_le {g : Dag} {order : List Name} (ht : g.Topological order) {d n : Name} (h : g.From d n) : order.idxOf d ≤ order.idxOf n := by
  induction h with
  | self => exact Nat.le_refl _
  | step _ he ih => have := edge_lt ht he; omega

theorem no_edge_back {g : Dag} {order : List Name} (ht : g.Topological order) {d p : Name} (h : g.From d p) : ¬ g.Edge p d := by
  intro he
  have h1 := edge_lt ht he
  have h2 := from_le ht h
  omega

/-! ### the loop ends -/

theorem loop_list {g : Dag} {dims : List Name} (L : List Name)
    (h : ∀ n ∈ L, ∀ rest colors, ∃ k c', ∀ f, g.colorLoop dims (f + k) (n :: rest) colors = g.colorLoop dims f rest c') :
    ∀ rest colors, ∃ k c', ∀ f, g.colorLoop dims (f + k) (L ++ rest) colors = g.colorLoop dims f rest c' := by
  induction L with
  | nil => intro rest colors; exact ⟨0, colors, fun f => rfl⟩
  | cons n L ih =>
    intro rest colors
    obtain ⟨k, c, hk⟩ := h n List.mem_cons_self (L ++ rest) colors
    obtain ⟨j, c', hj⟩ := ih (fun m hm => h m (List.mem_cons_of_mem _ hm)) rest c
    refine ⟨j + k, c', fun f => ?_⟩
    rw [List.cons_append, ← Nat.add_assoc, hk, hj]

theorem loop_node {g : Dag} {dims : List Name} {order : List Name} (ht : g.Topological order) : ∀ (post pre : List Name), order = pre ++ post →
    ∀ n ∈ post, ∀ rest colors, ∃ k c', ∀ f, g.colorLoop dims (f + k) (n :: rest) colors = g.colorLoop dims f rest c'
  | [], _, _ => by simp
  | m :: post, pre, ho => by
    have ih := loop_node ht (dims := dims) post (pre ++ [m]) (by rw [ho]; simp)
    intro n hn rest colors
    rcases List.mem_cons.1 hn with rfl | hn
    · obtain ⟨k, c', hk⟩ := loop_list (g := g) (dims := dims) (g.children n).reverse (by
        intro c hc
        apply ih c
        rw [List.mem_reverse, mem_children] at hc
        have hlt := edge_lt ht hc
        have hcm := (ht.2.2.1 c).2 hc.1
        have hnpre : n ∉ pre := by
          have := ht.2.1
          rw [ho] at this
          exact fun hc => (List.nodup_append.1 this).2.2 n hc n List.mem_cons_self rfl
        rw [ho, List.mem_append, List.mem_cons] at hcm
        rcases hcm with hcm | rfl | hcm
        · exfalso
          rw [ho, List.idxOf_append_of_mem hcm, List.idxOf_append_of_notMem hnpre] at hlt
          have := List.idxOf_lt_length_iff.2 hcm
          omega
        · omega
        · exact hcm) rest (g.addShares dims n colors)
      exact ⟨k + 1, c', fun f => by rw [← Nat.add_assoc, Dag.colorLoop, hk]⟩
    · exact ih n hn rest colors

theorem colorDim_ends {g : Dag} {dims : List Name} {order : List Name} (ht : g.Topological order) {d : Name} (hd : d ∈ g.nodes) :
    ∃ K c, ∀ rounds, K ≤ rounds → g.colorDim dims rounds d = .ok c := by
  obtain ⟨k, c, h⟩ := loop_node (dims := dims) ht order [] rfl d ((ht.2.2.1 d).2 hd) [] (fun c => if c = d then 1 else 0)
  refine ⟨k + 1, c, fun r hr => ?_⟩
  obtain ⟨f, rfl⟩ : ∃ f, r = (f + 1) + k := ⟨r - 1 - k, by omega⟩
  unfold Dag.colorDim
  rw [h]
  rfl

theorem colorAll_ends {g : Dag} {dims : List Name} {order : List Name} (ht : g.Topological order) : ∀ l : List Name, (∀ d ∈ l, d ∈ g.nodes) →
    ∃ K c, ∀ rounds, K ≤ rounds → g.colorAll dims rounds l = .ok c
  | [], _ => ⟨0, _, fun _ _ => rfl⟩
  | d :: ds, h => by
    obtain ⟨K, c, h1⟩ := colorDim_ends (dims := dims) ht (h d List.mem_cons_self)
    obtain ⟨K', c', h2⟩ := colorAll_ends (dims := dims) ht ds (fun d hd => h d (List.mem_cons_of_mem _ hd))
    refine ⟨max K K', fun d' n => if d' = d then c n else c' d' n, fun r hr => ?_⟩
    rw [Dag.colorAll, h1 r (by omega)]
    dsimp only
    rw [h2 r (by omega)]

theorem colorAll_get {g : Dag} {dims : List Name} {rounds : Nat} : ∀ (l : List Name) (cs : Name → Name → Rat), g.colorAll dims rounds l = .ok cs →
    ∀ d ∈ l, g.colorDim dims rounds d = .ok (cs d)
  | [], _, _ => by simp
  | e :: ds, cs, h => by
    rw [Dag.colorAll] at h
    split at h
    · cases h
    · rename_i c hc
      split at h
      · cases h
      · rename_i cs' hcs
        cases h
        intro d hd
        by_cases he : d = e
        · subst he; simp [hc]
        · simp only [if_neg he]
          exact colorAll_get ds cs' hcs d ((List.mem_cons.1 hd).resolve_left he)

theorem loop_mono {g : Dag} {dims : List Name} : ∀ (k j : Nat) (stack : List Name) (colors out : Name → Rat), k ≤ j → g.colorLoop dims k stack colors = .ok out →
    g.colorLoop dims j stack colors = .ok out
  | 0, _, _, _, _, _, h => by cases h
  | k + 1, 0, _, _, _, hk, _ => by omega
  | k + 1, j + 1, [], colors, out, _, h => by simpa [Dag.colorLoop] using h
  | k + 1, j + 1, n :: stack, colors, out, hk, h => by
    rw [Dag.colorLoop] at h ⊢
    exact loop_mono k j _ _ out (by omega) h

theorem nameChanges_mono {g : Dag} {dims : List Name} {order : List Name} {k j : Nat} (hk : k ≤ j) {names : Name → Option Name} (h : g.nameChanges dims k order = .ok names) :
    g.nameChanges dims j order = .ok names := by
  have hall : ∀ (l : List Name) (c : Name → Name → Rat), g.colorAll dims k l = .ok c → g.colorAll dims j l = .ok c := by
    intro l
    induction l with
    | nil => intro c h; simpa [Dag.colorAll] using h
    | cons d ds ih =>
      intro c h
      rw [Dag.colorAll] at h ⊢
      cases hc : g.colorDim dims k d with
      | error e => rw [hc] at h; cases h
      | ok cd =>
        rw [hc] at h
        dsimp only at h
        have := loop_mono k j _ _ _ hk hc
        rw [show g.colorDim dims j d = .ok cd from this]
        dsimp only
        cases hcs : g.colorAll dims k ds with
        | error e => rw [hcs] at h; cases h
        | ok cs => rw [hcs] at h; rw [ih cs hcs]; exact h
  unfold Dag.nameChanges at h ⊢
  cases hc : g.colorAll dims k dims with
  | error e => rw [hc] at h; cases h
  | ok c => rw [hc] at h; rw [hall dims c hc]; exact h

theorem nameChanges_at {g : Dag} {dims : List Name} {order : List Name} {k : Nat} {d : Name} {x : Option Name} (h : (g.nameChanges dims k order).map (fun f => f d) = .ok x)
    (j : Nat) (hj : k ≤ j) : (g.nameChanges dims j order).map (fun f => f d) = .ok x := by
  cases hn : g.nameChanges dims k order with
  | error e => rw [hn] at h; cases h
  | ok names => rw [hn] at h; rw [nameChanges_mono hj hn]; exact h

/-! ### colors in general -/

theorem loop_sound {g : Dag} {dims : List Name} {d : Name} (hd : d ∈ dims) : ∀ (k : Nat) (stack : List Name) (colors out : Name → Rat), g.colorLoop dims k stack colors = .ok out →
    (∀ n ∈ stack, g.From d n) → (∀ n, colors n ≠ 0 → g.From d n) → (∀ n ∈ dims, colors n = if n = d then 1 else 0) →
    (∀ n, out n ≠ 0 → g.From d n) ∧ ∀ n ∈ dims, out n = if n = d then 1 else 0
  | 0, _, _, _, h, _, _, _ => by cases h
  | k + 1, [], colors, out, h, _, h2, h3 => by
    simp only [Dag.colorLoop, Except.ok.injEq] at h
    subst h; exact ⟨h2, h3⟩
  | k + 1, n :: stack, colors, out, h, h1, h2, h3 => by
    rw [Dag.colorLoop] at h
    refine loop_sound hd k _ _ out h ?_ ?_ ?_
    · intro m hm
      rcases List.mem_append.1 hm with hm | hm
      · rw [List.mem_reverse, mem_children] at hm
        exact .step (h1 n List.mem_cons_self) hm
      · exact h1 m (List.mem_cons_of_mem _ hm)
    · intro m hm
      unfold Dag.addShares at hm
      split at hm
      · rename_i hc
        exact .step (h1 n List.mem_cons_self) (mem_children.1 hc.1)
      · exact h2 m hm
    · intro m hm
      unfold Dag.addShares
      rw [if_neg (fun h => h.2 hm)]
      exact h3 m hm

theorem colorDim_sound {g : Dag} {dims : List Name} {d : Name} (hd : d ∈ dims) {rounds : Nat} {c : Name → Rat} (h : g.colorDim dims rounds d = .ok c) :
    (∀ n, c n ≠ 0 → g.From d n) ∧ ∀ n ∈ dims, c n = if n = d then 1 else 0 := by
  refine loop_sound hd rounds _ _ c h ?_ ?_ ?_
  · intro n hn; rw [List.mem_singleton] at hn; subst hn; exact .self
  · intro n hn
    by_cases he : n = d
    · subst he; exact .self
    · simp [he] at hn
  · intro n _; rfl

/-! ### trees -/

/-- The share of the color of `d` at a node. -/
inductive Share (g : Dag) (dims : List Name) (d : Name) : Name → Rat → Prop
  | self : Share g dims d d 1
  | step {p c : Name} {q : Rat} : Share g dims d p q → g.Edge p c → Share g dims d c (if c ∈ dims then 0 else q * (1 / (g.children p).length))

structure TInv (g : Dag) (dims : List Name) (d : Name) (vis stack : List Name) (colors : Name → Rat) : Prop where
  nodup : (vis ++ stack).Nodup
  reach : ∀ n ∈ vis ++ stack, g.From d n
  start : d ∈ vis ++ stack
  closed : ∀ p ∈ vis, ∀ c, g.Edge p c → c ∈ vis ++ stack
  parent : ∀ n ∈ vis ++ stack, n = d ∨ ∃ p ∈ vis, g.Edge p n
  share : ∀ n ∈ vis ++ stack, Share g dims d n (colors n)
  zero : ∀ n, n ∉ vis ++ stack → colors n = 0

theorem tree_loop {g : Dag} {dims : List Name} {order : List Name} (ht : g.Topological order) {d : Name} (hT : g.Tree d) : ∀ (k : Nat) (vis stack : List Name) (colors out : Name → Rat),
    TInv g dims d vis stack colors → g.colorLoop dims k stack colors = .ok out → ∀ n, g.From d n → Share g dims d n (out n)
  | 0, _, _, _, _, _, h => by cases h
  | k + 1, vis, [], colors, out, hi, h => by
    simp only [Dag.colorLoop, Except.ok.injEq] at h
    subst h
    have : ∀ n, g.From d n → n ∈ vis := by
      intro n hn
      induction hn with
      | self => have := hi.start; rwa [List.append_nil] at this
      | step _ he ih => have := hi.closed _ ih _ he; rwa [List.append_nil] at this
    intro n hn
    exact hi.share n (by rw [List.append_nil]; exact this n hn)
  | k + 1, vis, n :: stack, colors, out, hi, h => by
    rw [Dag.colorLoop] at h
    have hn : n ∈ vis ++ n :: stack := by simp
    have hnv : n ∉ vis := fun hc => (List.nodup_append.1 hi.nodup).2.2 n hc n List.mem_cons_self rfl
    have hnew : ∀ c, g.Edge n c → c ∉ vis ++ n :: stack := by
      intro c hc hm
      rcases hi.parent c hm with rfl | ⟨p, hp, hpe⟩
      · exact no_edge_back ht (hi.reach n hn) hc
      · have := hT c n p (hi.reach n hn) (hi.reach p (List.mem_append_left _ hp)) hc hpe
        subst this; exact hnv hp
    have hmem : ∀ m, m ∈ (vis ++ [n]) ++ ((g.children n).reverse ++ stack) ↔ m ∈ vis ++ n :: stack ∨ g.Edge n m := by
      intro m
      simp only [List.mem_append, List.mem_singleton, List.mem_reverse, mem_children, List.mem_cons]
      tauto
    refine tree_loop ht hT k (vis ++ [n]) _ _ out ⟨?_, ?_, ?_, ?_, ?_, ?_, ?_⟩ h
    · have hperm : ((vis ++ [n]) ++ ((g.children n).reverse ++ stack)).Perm ((g.children n).reverse ++ (vis ++ n :: stack)) := by
        have : vis ++ n :: stack = (vis ++ [n]) ++ stack := by simp
        rw [this, ← List.append_assoc, ← List.append_assoc]
        exact List.Perm.append_right _ List.perm_append_comm
      rw [hperm.nodup_iff, List.nodup_append]
      refine ⟨List.nodup_reverse.2 (ht.1.filter _), hi.nodup, ?_⟩
      intro a ha b hb hab
      subst hab
      exact hnew a (mem_children.1 (List.mem_reverse.1 ha)) hb
    · intro m hm
      rcases (hmem m).1 hm with hm | hm
      · exact hi.reach m hm
      · exact .step (hi.reach n hn) hm
    · exact (hmem d).2 (Or.inl hi.start)
    · intro p hp c hc
      rw [hmem]
      rcases List.mem_append.1 hp with hp | hp
      · exact Or.inl (hi.closed p hp c hc)
      · rw [List.mem_singleton] at hp; subst hp; exact Or.inr hc
    · intro m hm
      rcases (hmem m).1 hm with hm | hm
      · rcases hi.parent m hm with h | ⟨p, hp, he⟩
        · exact Or.inl h
        · exact Or.inr ⟨p, List.mem_append_left _ hp, he⟩
      · exact Or.inr ⟨n, by simp, hm⟩
    · intro m hm
      unfold Dag.addShares
      rcases (hmem m).1 hm with hm | hm
      · rw [if_neg (fun hc => hnew m (mem_children.1 hc.1) hm)]
        exact hi.share m hm
      · have hz := hi.zero m (hnew m hm)
        have hs := Share.step (hi.share n hn) hm
        by_cases hmd : m ∈ dims
        · rw [if_neg (fun hc => hc.2 hmd), hz]
          rwa [if_pos hmd] at hs
        · rw [if_pos ⟨mem_children.2 hm, hmd⟩, hz, zero_add]
          rwa [if_neg hmd] at hs
    · intro m hm
      rw [hmem, not_or] at hm
      unfold Dag.addShares
      rw [if_neg (fun hc => hm.2 (mem_children.1 hc.1))]
      exact hi.zero m hm.1

theorem share_from {g : Dag} {dims : List Name} {d n : Name} {q : Rat} (h : Share g dims d n q) : g.From d n := by
  induction h with
  | self => exact .self
  | step _ he ih => exact .step ih he

theorem share_unique {g : Dag} {dims : List Name} {order : List Name} (ht : g.Topological order) {d : Name} (hT : g.Tree d) {n : Name} {q : Rat} (h : Share g dims d n q) :
    ∀ q', Share g dims d n q' → q = q' := by
  induction h with
  | self =>
    intro q' h'
    generalize hx : d = x at h'
    cases h' with
    | self => rfl
    | step hp he => exact absurd (hx ▸ he) (no_edge_back ht (share_from hp))
  | @step p c q hp he ih =>
    intro q' h'
    cases h' with
    | self => exact absurd he (no_edge_back ht (share_from hp))
    | @step p' _ q'' hp' he' =>
      obtain rfl := hT _ _ _ (share_from hp) (share_from hp') he he'
      rw [ih _ hp']

theorem share_bounds {g : Dag} {dims : List Name} (hnd : g.nodes.Nodup) {d n : Name} {q : Rat} (h : Share g dims d n q) :
    0 ≤ q ∧ q ≤ 1 ∧ (q = 1 → g.Chain dims d n) := by
  induction h with
  | self => exact ⟨by norm_num, le_refl _, fun _ => .self⟩
  | @step p c q hp he ih =>
    obtain ⟨h0, h1, h2⟩ := ih
    split
    · exact ⟨le_refl _, by norm_num, fun h => absurd h (by norm_num)⟩
    · rename_i hc
      have hcm : c ∈ g.children p := mem_children.2 he
      have hl : 1 ≤ (g.children p).length := List.length_pos_of_mem hcm
      have hlq : (1 : Rat) ≤ (g.children p).length := by exact_mod_cast hl
      have hx0 : (0 : Rat) < 1 / (g.children p).length := by positivity
      have hx1 : (1 : Rat) / (g.children p).length ≤ 1 := by
        rw [div_le_one (by linarith)]; exact hlq
      refine ⟨by positivity, by nlinarith, fun heq => ?_⟩
      have hx : (1 : Rat) ≤ 1 / (g.children p).length := by nlinarith
      have hq : q = 1 := by nlinarith
      have hlen : ((g.children p).length : Rat) ≤ 1 := by
        rwa [one_le_div (by linarith)] at hx
      have hlen' : (g.children p).length = 1 := by
        have : (g.children p).length ≤ 1 := by exact_mod_cast hlen
        omega
      obtain ⟨x, hx⟩ := List.length_eq_one_iff.1 hlen'
      refine .step (h2 hq) he ?_ hc
      intro c' hc'
      have h3 := mem_children.2 hc'
      rw [hx, List.mem_singleton] at h3 hcm
      rw [h3, hcm]

theorem chain_share {g : Dag} {dims : List Name} (hnd : g.nodes.Nodup) {d n : Name} (h : g.Chain dims d n) : Share g dims d n 1 := by
  induction h with
  | self => exact .self
  | @step n c _ he hu hc ih =>
    have := Share.step ih he
    rw [if_neg hc] at this
    have hone : g.children n = [c] := by
      have h1 : ∀ x ∈ g.children n, x = c := fun x hx => hu x (mem_children.1 hx)
      have h2 : (g.children n).Nodup := hnd.filter _
      have h3 : c ∈ g.children n := mem_children.2 he
      match hl : g.children n, h1, h2, h3 with
      | [a], h1, _, _ => rw [h1 a (by simp)]
      | a :: b :: l, h1, h2, _ =>
        have ha := h1 a (by simp)
        have hb := h1 b (by simp)
        subst ha; subst hb
        simp at h2
    rw [hone] at this
    simpa using this

theorem chain_from {g : Dag} {dims : List Name} {d n : Name} (h : g.Chain dims d n) : g.From d n := by
  induction h with
  | self => exact .self
  | step _ he _ _ ih => exact .step ih he

theorem tree_color {g : Dag} {dims : List Name} {order : List Name} (ht : g.Topological order) {d : Name} (hd : d ∈ dims) (hT : g.Tree d) {rounds : Nat} {c : Name → Rat}
    (h : g.colorDim dims rounds d = .ok c) (n : Name) : c n = 1 ↔ g.Chain dims d n := by
  by_cases hf : g.From d n
  · have hs : Share g dims d n (c n) := by
      refine tree_loop ht hT rounds [] [d] _ c ⟨by simp, ?_, by simp, by simp, by simp, ?_, ?_⟩ h n hf
      · intro m hm; simp at hm; subst hm; exact .self
      · intro m hm; simp at hm; subst hm; simpa using Share.self
      · intro m hm; simp at hm; simp [hm]
    constructor
    · exact (share_bounds ht.1 hs).2.2
    · intro hc
      exact share_unique ht hT hs 1 (chain_share ht.1 hc)
  · constructor
    · intro h1
      exact absurd ((colorDim_sound hd h).1 n (by rw [h1]; norm_num)) hf
    · intro hc; exact absurd (chain_from hc) hf

/-! ### chains -/

theorem chain_trans {g : Dag} {dims : List Name} {a b c : Name} (h1 : g.Chain dims a b) (h2 : g.Chain dims b c) : g.Chain dims a c := by
  induction h2 with
  | self => exact h1
  | step _ he hu hc ih => exact .step ih he hu hc

theorem chain_head {g : Dag} {dims : List Name} {a b : Name} (h : g.Chain dims a b) :
    a = b ∨ ∃ c, g.Edge a c ∧ (∀ c', g.Edge a c' → c' = c) ∧ c ∉ dims ∧ g.Chain dims c b := by
  induction h with
  | self => exact Or.inl rfl
  | step _ he hu hc ih =>
    rcases ih with rfl | ⟨x, h1, h2, h3, h4⟩
    · exact Or.inr ⟨_, he, hu, hc, .self⟩
    · exact Or.inr ⟨x, h1, h2, h3, .step h4 he hu hc⟩

theorem chain_linear {g : Dag} {dims : List Name} {d n m : Name} (h1 : g.Chain dims d n) (h2 : g.Chain dims d m) : g.Chain dims n m ∨ g.Chain dims m n := by
  induction h1 with
  | self => exact Or.inl h2
  | step _ he hu hc ih =>
    rcases ih with h | h
    · rcases chain_head h with rfl | ⟨x, k1, k2, k3, k4⟩
      · exact Or.inr (.step .self he hu hc)
      · rw [hu x k1] at k4; exact Or.inl k4
    · exact Or.inr (.step h he hu hc)

theorem chain_lt {g : Dag} {dims : List Name} {order : List Name} (ht : g.Topological order) {a b : Name} (h : g.Chain dims a b) : a = b ∨ order.idxOf a < order.idxOf b := by
  rcases chain_head h with h | ⟨c, h1, -, -, h2⟩
  · exact Or.inl h
  · right
    have := edge_lt ht h1
    have := from_le ht (chain_from h2)
    omega

/-! ### the choice -/

theorem fullColor_iff {dims : List Name} {colors : Name → Name → Rat} {n d : Name} (hd : d ∈ dims) :
    fullColor dims colors n d = true ↔ colors d n = 1 ∧ ∀ d' ∈ dims, d' ≠ d → colors d' n ≠ 1 := by
  unfold fullColor
  rw [List.all_eq_true]
  constructor
  · intro h
    refine ⟨by simpa using h d hd, fun d' hd' hne => ?_⟩
    have := h d' hd'
    rw [if_neg hne] at this
    simpa using this
  · rintro ⟨h1, h2⟩ x hx
    by_cases he : x = d
    · subst he; simpa using h1
    · rw [if_neg he]; simpa using h2 x hx he

theorem find_last {order : List Name} {p : Name → Bool} {n : Name} (hn : order.Nodup) :
    order.reverse.find? p = some n ↔ n ∈ order ∧ p n = true ∧ ∀ m ∈ order, p m = true → order.idxOf m ≤ order.idxOf n := by
  rw [List.find?_eq_some_iff_append]
  constructor
  · rintro ⟨hp, as, bs, h1, h2⟩
    have ho : order = bs.reverse ++ n :: as.reverse := by
      have := congrArg List.reverse h1
      simpa using this
    have hnb : n ∉ bs.reverse := by
      rw [ho] at hn
      exact fun hc => (List.nodup_append.1 hn).2.2 n hc n List.mem_cons_self rfl
    refine ⟨by rw [ho]; simp, hp, ?_⟩
    intro m hm hpm
    rw [ho] at hm ⊢
    rw [List.idxOf_append_of_notMem hnb, List.idxOf_cons_self]
    rcases List.mem_append.1 hm with hm | hm
    · rw [List.idxOf_append_of_mem hm]
      have := List.idxOf_lt_length_iff.2 hm
      omega
    · rcases List.mem_cons.1 hm with rfl | hm
      · rw [List.idxOf_append_of_notMem hnb, List.idxOf_cons_self]
      · have := h2 m (List.mem_reverse.1 hm)
        rw [hpm] at this; simp at this
  · rintro ⟨hm, hp, hl⟩
    obtain ⟨pre, post, ho⟩ := List.append_of_mem hm
    refine ⟨hp, post.reverse, pre.reverse, by rw [ho]; simp, ?_⟩
    intro a ha
    rw [List.mem_reverse] at ha
    by_contra hc
    have hpa : p a = true := by simpa using hc
    have hle := hl a (by rw [ho]; simp [ha]) hpa
    rw [ho] at hn hle
    have hnd := List.nodup_append.1 hn
    have hnb : n ∉ pre := fun hc => hnd.2.2 n hc n List.mem_cons_self rfl
    have hab : a ∉ pre := fun hc => hnd.2.2 a hc a (List.mem_cons_of_mem _ ha) rfl
    have hna : n ≠ a := by rintro rfl; exact (List.nodup_cons.1 hnd.2.1).1 ha
    rw [List.idxOf_append_of_notMem hnb, List.idxOf_append_of_notMem hab, List.idxOf_cons_self, List.idxOf_cons_ne _ hna] at hle
    omega

end Scipp.TransformDims
