import Verif.Spec.DataGroup
import Mathlib.Data.List.Basic
import Mathlib.Data.List.Nodup
import Mathlib.Tactic.Tauto
import Mathlib.Tactic.ByContra
/-
Lemmas about groups: sizes in terms of the arrays in the tree, and operations as relations between trees.
-/
namespace Scipp.DG
variable {A I : Type}

private def Good (acc : List (Dim × List (Option Nat))) : Prop :=
  (acc.map Prod.fst).Nodup ∧ ∀ p ∈ acc, p.2 ≠ [] ∧ p.2.Nodup

private theorem addSize_keys (d : Dim) (s : Option Nat) (acc : List (Dim × List (Option Nat))) (k : Dim) :
    k ∈ (addSize d s acc).map Prod.fst ↔ k = d ∨ k ∈ acc.map Prod.fst := by
  induction acc with
  | nil => simp [addSize]
  | cons p rest ih =>
    obtain ⟨d', ss⟩ := p
    simp only [addSize]
    split
    · rename_i h; subst h; simp
    · simp only [List.map_cons, List.mem_cons, ih]; tauto

private theorem addSize_good (d : Dim) (s : Option Nat) (acc : List (Dim × List (Option Nat))) (h : Good acc) : Good (addSize d s acc) := by
  induction acc with
  | nil => exact ⟨by simp [addSize], by simp [addSize]⟩
  | cons p rest ih =>
    obtain ⟨d', ss⟩ := p
    obtain ⟨h1, h2⟩ := h
    simp only [List.map_cons, List.nodup_cons] at h1
    have hr : Good rest := ⟨h1.2, fun p hp => h2 p (by simp [hp])⟩
    simp only [addSize]
    split
    · refine ⟨by simpa using h1, ?_⟩
      intro p hp
      rcases List.mem_cons.1 hp with rfl | hp
      · have := h2 (d', ss) (by simp)
        dsimp only at this ⊢
        split
        · exact this
        · rename_i hs
          refine ⟨by simp, ?_⟩
          rw [List.nodup_append]
          exact ⟨this.2, by simp, by rintro a ha b hb rfl; simp at hb; subst hb; exact hs ha⟩
      · exact hr.2 p hp
    · rename_i hd
      obtain ⟨i1, i2⟩ := ih hr
      refine ⟨?_, ?_⟩
      · simp only [List.map_cons, List.nodup_cons]
        refine ⟨?_, i1⟩
        rw [addSize_keys]
        rintro (h | h)
        · exact hd h
        · exact h1.1 h
      · intro p hp
        rcases List.mem_cons.1 hp with rfl | hp
        · exact h2 (d', ss) (by simp)
        · exact i2 p hp

private theorem addSize_mem (d : Dim) (s : Option Nat) (acc : List (Dim × List (Option Nat))) (k : Dim) (r : Option Nat) :
    (∃ ss, (k, ss) ∈ addSize d s acc ∧ r ∈ ss) ↔ (k = d ∧ r = s) ∨ ∃ ss, (k, ss) ∈ acc ∧ r ∈ ss := by
  induction acc with
  | nil => simp [addSize]
  | cons p rest ih =>
    obtain ⟨d', ss⟩ := p
    simp only [addSize]
    split
    · rename_i h
      subst h
      simp only [List.mem_cons, Prod.mk.injEq]
      constructor
      · rintro ⟨xs, ⟨rfl, rfl⟩ | hx, hr⟩
        · split at hr
          · exact .inr ⟨ss, .inl ⟨rfl, rfl⟩, hr⟩
          · rcases List.mem_append.1 hr with hr | hr
            · exact .inr ⟨ss, .inl ⟨rfl, rfl⟩, hr⟩
            · simp at hr; exact .inl ⟨rfl, hr⟩
        · exact .inr ⟨xs, .inr hx, hr⟩
      · rintro (⟨rfl, rfl⟩ | ⟨xs, ⟨rfl, rfl⟩ | hx, hr⟩)
        · refine ⟨_, .inl ⟨rfl, rfl⟩, ?_⟩
          split
          · assumption
          · simp
        · refine ⟨_, .inl ⟨rfl, rfl⟩, ?_⟩
          split
          · exact hr
          · simp [hr]
        · exact ⟨xs, .inr hx, hr⟩
    · simp only [List.mem_cons, Prod.mk.injEq]
      constructor
      · rintro ⟨xs, ⟨rfl, rfl⟩ | hx, hr⟩
        · exact .inr ⟨xs, .inl ⟨rfl, rfl⟩, hr⟩
        · rcases ih.1 ⟨xs, hx, hr⟩ with h | ⟨ys, hy, hr⟩
          · exact .inl h
          · exact .inr ⟨ys, .inr hy, hr⟩
      · rintro (h | ⟨xs, ⟨rfl, rfl⟩ | hx, hr⟩)
        · obtain ⟨ys, hy, hr⟩ := ih.2 (.inl h)
          exact ⟨ys, .inr hy, hr⟩
        · exact ⟨xs, .inl ⟨rfl, rfl⟩, hr⟩
        · obtain ⟨ys, hy, hr⟩ := ih.2 (.inr ⟨xs, hx, hr⟩)
          exact ⟨ys, .inr hy, hr⟩

private theorem fold_spec (es : List (Dim × Option Nat)) (acc : List (Dim × List (Option Nat))) (h : Good acc) :
    Good (es.foldl (fun acc e => addSize e.1 e.2 acc) acc) ∧
    ∀ k r, (∃ ss, (k, ss) ∈ es.foldl (fun acc e => addSize e.1 e.2 acc) acc ∧ r ∈ ss) ↔ (k, r) ∈ es ∨ ∃ ss, (k, ss) ∈ acc ∧ r ∈ ss := by
  induction es generalizing acc with
  | nil => exact ⟨h, by simp⟩
  | cons e es ih =>
    obtain ⟨i1, i2⟩ := ih (addSize e.1 e.2 acc) (addSize_good _ _ _ h)
    refine ⟨i1, fun k r => ?_⟩
    rw [List.foldl_cons, i2 k r, addSize_mem, List.mem_cons]
    constructor
    · rintro (h | ⟨rfl, rfl⟩ | h)
      · exact .inl (.inr h)
      · exact .inl (.inl rfl)
      · exact .inr h
    · rintro ((h | h) | h)
      · exact .inr (.inl (by rw [← h]; exact ⟨rfl, rfl⟩))
      · exact .inl h
      · exact .inr (.inr h)

/-- The dims of a group are those of its items. -/
theorem combine_dims (es : List (Dim × Option Nat)) (d : Dim) : (∃ s, (d, s) ∈ combine es) ↔ ∃ s, (d, s) ∈ es := by
  obtain ⟨g, hm⟩ := fold_spec es [] ⟨by simp, by simp⟩
  simp only [combine, List.mem_map, Prod.mk.injEq]
  constructor
  · rintro ⟨s, ⟨k, ss⟩, hp, rfl, -⟩
    have hne := (g.2 _ hp).1
    obtain ⟨r, hr⟩ := List.exists_mem_of_ne_nil _ hne
    rcases (hm k r).1 ⟨ss, hp, hr⟩ with h | ⟨_, h, _⟩
    · exact ⟨r, h⟩
    · simp at h
  · rintro ⟨s, hs⟩
    obtain ⟨ss, hp, -⟩ := (hm d s).2 (.inl hs)
    exact ⟨_, (d, ss), hp, rfl, rfl⟩

/-- The size of a group is that of its items if they agree. -/
theorem combine_sizes (es : List (Dim × Option Nat)) (d : Dim) (n : Nat) :
    (∀ s, (d, s) ∈ combine es → s = some n) ↔ ∀ s, (d, s) ∈ es → s = some n := by
  obtain ⟨g, hm⟩ := fold_spec es [] ⟨by simp, by simp⟩
  simp only [combine, List.mem_map, Prod.mk.injEq]
  constructor
  · intro h s hs
    obtain ⟨ss, hp, hr⟩ := (hm d s).2 (.inl hs)
    have := h _ ⟨(d, ss), hp, rfl, rfl⟩
    dsimp only at this
    split at this
    · rename_i x
      subst this
      simpa using hr
    · cases this
  · rintro h s ⟨⟨k, ss⟩, hp, rfl, rfl⟩
    obtain ⟨h1, h2⟩ := g.2 _ hp
    have hall : ∀ r ∈ ss, r = some n := by
      intro r hr
      rcases (hm k r).1 ⟨ss, hp, hr⟩ with h' | ⟨_, h', _⟩
      · exact h r h'
      · simp at h'
    dsimp only at h1 h2 ⊢
    match ss, h1, h2, hall with
    | [], h1, _, _ => exact absurd rfl h1
    | [x], _, _, hall => exact hall x (by simp)
    | x :: y :: l, _, h2, hall =>
      have hx := hall x (by simp)
      have hy := hall y (by simp)
      subst hx hy
      simp at h2

theorem combine_nodup (es : List (Dim × Option Nat)) : ((combine es).map Prod.fst).Nodup := by
  obtain ⟨g, -⟩ := fold_spec es [] ⟨by simp, by simp⟩
  simpa [combine, List.map_map, Function.comp_def] using g.1

theorem mem_dims {ops : Ops A I} {x : Item A} {d : Dim} : d ∈ x.dims ops ↔ ∃ s, (d, s) ∈ x.sizes ops := by
  simp [Item.dims]

theorem not_has_obj {o : Nat} {a : A} : ¬ Item.Has (.obj o) a := by rintro ⟨⟩

theorem has_arr {b a : A} : Item.Has (.arr b) a ↔ a = b := by
  constructor
  · rintro ⟨⟩; rfl
  · rintro rfl; exact .arr _

theorem has_group {xs : Items A} {a : A} : Item.Has (.group xs) a ↔ Items.Has xs a := by
  constructor
  · rintro ⟨⟩; assumption
  · exact .group _ _

theorem not_has_nil {a : A} : ¬ Items.Has .nil a := by rintro ⟨⟩

theorem has_cons {k : Nat} {x : Item A} {xs : Items A} {a : A} : Items.Has (.cons k x xs) a ↔ Item.Has x a ∨ Items.Has xs a := by
  constructor
  · intro h
    cases h with
    | head _ _ _ _ h => exact .inl h
    | tail _ _ _ _ h => exact .inr h
  · rintro (h | h)
    · exact .head _ _ _ _ h
    · exact .tail _ _ _ _ h

mutual
/-- The dims of an item are those of the arrays in it. -/
theorem item_dims (ops : Ops A I) (d : Dim) : (x : Item A) → ((∃ s, (d, s) ∈ x.sizes ops) ↔ ∃ a, x.Has a ∧ ops.Depends a d)
  | .obj o => by simp [Item.sizes, not_has_obj]
  | .arr b => by simp [Item.sizes, has_arr, Ops.Depends]
  | .group xs => by
    simp only [Item.sizes, has_group]
    rw [combine_dims, items_dims ops d xs]

theorem items_dims (ops : Ops A I) (d : Dim) : (xs : Items A) → ((∃ s, (d, s) ∈ xs.entries ops) ↔ ∃ a, xs.Has a ∧ ops.Depends a d)
  | .nil => by simp [Items.entries, not_has_nil]
  | .cons k x xs => by
    have h1 := item_dims ops d x
    have h2 := items_dims ops d xs
    simp only [Items.entries, List.mem_append, has_cons, exists_or, or_and_right, h1, h2]
end

mutual
/-- The sizes of an item agree with those of the arrays in it. -/
theorem item_sizes (ops : Ops A I) (d : Dim) (n : Nat) :
    (x : Item A) → ((∀ s, (d, s) ∈ x.sizes ops → s = some n) ↔ ∀ a m, x.Has a → (d, m) ∈ ops.sizes a → m = n)
  | .obj o => by simp [Item.sizes, not_has_obj]
  | .arr b => by
    simp only [Item.sizes, has_arr, List.mem_map, Prod.mk.injEq]
    constructor
    · rintro h a m rfl hm
      simpa using h (some m) ⟨(d, m), hm, rfl, rfl⟩
    · rintro h s ⟨⟨k, m⟩, hm, rfl, rfl⟩
      rw [h b m rfl hm]
  | .group xs => by
    simp only [Item.sizes, has_group]
    rw [combine_sizes, items_sizes ops d n xs]

theorem items_sizes (ops : Ops A I) (d : Dim) (n : Nat) :
    (xs : Items A) → ((∀ s, (d, s) ∈ xs.entries ops → s = some n) ↔ ∀ a m, xs.Has a → (d, m) ∈ ops.sizes a → m = n)
  | .nil => by simp [Items.entries, not_has_nil]
  | .cons k x xs => by
    have h1 := item_sizes ops d n x
    have h2 := items_sizes ops d n xs
    simp only [Items.entries, List.mem_append, has_cons, or_imp, forall_and, h1, h2]
end

theorem rel_obj {R : A → A → Prop} {o : Nat} {y : Item A} : Item.Rel R (.obj o) y ↔ y = .obj o := by
  constructor
  · rintro ⟨⟩; rfl
  · rintro rfl; exact .obj o

theorem rel_arr {R : A → A → Prop} {a : A} {y : Item A} : Item.Rel R (.arr a) y ↔ ∃ b, R a b ∧ y = .arr b := by
  constructor
  · intro h
    cases h with
    | arr _ b h => exact ⟨b, h, rfl⟩
  · rintro ⟨b, h, rfl⟩; exact .arr _ _ h

theorem rel_group {R : A → A → Prop} {xs : Items A} {y : Item A} : Item.Rel R (.group xs) y ↔ ∃ ys, Items.Rel R xs ys ∧ y = .group ys := by
  constructor
  · intro h
    cases h with
    | group _ ys h => exact ⟨ys, h, rfl⟩
  · rintro ⟨b, h, rfl⟩; exact .group _ _ h

theorem rel_nil {R : A → A → Prop} {ys : Items A} : Items.Rel R .nil ys ↔ ys = .nil := by
  constructor
  · rintro ⟨⟩; rfl
  · rintro rfl; exact .nil

theorem rel_cons {R : A → A → Prop} {k : Nat} {x : Item A} {xs zs : Items A} :
    Items.Rel R (.cons k x xs) zs ↔ ∃ y ys, Item.Rel R x y ∧ Items.Rel R xs ys ∧ zs = .cons k y ys := by
  constructor
  · intro h
    cases h with
    | cons _ _ y _ ys h hs => exact ⟨y, ys, h, hs, rfl⟩
  · rintro ⟨y, ys, h, hs, rfl⟩; exact .cons _ _ _ _ _ h hs

mutual
/-- Trees whose arrays are only related to themselves are related to themselves only. -/
theorem item_rel_same {R : A → A → Prop} : (x : Item A) → (∀ a b, x.Has a → (R a b ↔ b = a)) → ∀ y, (Item.Rel R x y ↔ y = x)
  | .obj o, _, y => rel_obj
  | .arr a, h, y => by
    rw [rel_arr]
    constructor
    · rintro ⟨b, hb, rfl⟩; rw [(h a b (.arr a)).1 hb]
    · rintro rfl; exact ⟨a, (h a a (.arr a)).2 rfl, rfl⟩
  | .group xs, h, y => by
    have ih := items_rel_same xs (fun a b ha => h a b (.group _ _ ha))
    rw [rel_group]
    constructor
    · rintro ⟨ys, hy, rfl⟩; rw [(ih ys).1 hy]
    · rintro rfl; exact ⟨xs, (ih xs).2 rfl, rfl⟩

theorem items_rel_same {R : A → A → Prop} : (xs : Items A) → (∀ a b, xs.Has a → (R a b ↔ b = a)) → ∀ ys, (Items.Rel R xs ys ↔ ys = xs)
  | .nil, _, ys => rel_nil
  | .cons k x xs, h, zs => by
    have ih1 := item_rel_same x (fun a b ha => h a b (.head _ _ _ _ ha))
    have ih2 := items_rel_same xs (fun a b ha => h a b (.tail _ _ _ _ ha))
    rw [rel_cons]
    constructor
    · rintro ⟨y, ys, hy, hs, rfl⟩; rw [(ih1 y).1 hy, (ih2 ys).1 hs]
    · rintro rfl; exact ⟨x, xs, (ih1 x).2 rfl, (ih2 xs).2 rfl, rfl⟩
end

theorem map_ok {α β : Type} {x : Except Err α} {f : α → β} {z : β} : x.map f = .ok z ↔ ∃ y, x = .ok y ∧ z = f y := by
  cases x with
  | error e => simp [Except.map]
  | ok v => simp only [Except.map, Except.ok.injEq, exists_eq_left']; exact eq_comm

theorem ok_eq {α : Type} {x y : α} : (Except.ok x : Except Err α) = .ok y ↔ y = x := by
  simp only [Except.ok.injEq]; exact eq_comm

theorem cons_ok {α : Type} {x : Except Err α} {xs : Except Err (Items A)} {f : α → Items A → Items A} {zs : Items A} :
    (do let y ← x; let ys ← xs; .ok (f y ys)) = Except.ok zs ↔ ∃ y ys, x = .ok y ∧ xs = .ok ys ∧ zs = f y ys := by
  cases x with
  | error e => simp [bind, Except.bind]
  | ok v =>
    cases xs with
    | error e => simp [bind, Except.bind]
    | ok w => simp only [bind, Except.bind, Except.ok.injEq]; constructor
              · rintro rfl; exact ⟨v, w, rfl, rfl, rfl⟩
              · rintro ⟨y, ys, rfl, rfl, rfl⟩; rfl

theorem arr_dims {ops : Ops A I} {a : A} {d : Dim} : d ∈ (Item.arr a).dims ops ↔ ops.Depends a d := by
  rw [mem_dims, item_dims]
  simp [has_arr]

theorem group_dims {ops : Ops A I} {xs : Items A} {d : Dim} : d ∈ (Item.group xs).dims ops ↔ ∃ a, xs.Has a ∧ ops.Depends a d := by
  rw [mem_dims, item_dims]
  simp [has_group]

mutual
theorem item_slice (ops : Ops A I) (d : Dim) (i : I) : (x y : Item A) → (x.slice ops d i = .ok y ↔ Item.Rel (SliceRel ops d i) x y)
  | .obj o, y => by rw [rel_obj]; simp only [Item.slice]; exact ok_eq
  | .arr a, y => by
    rw [rel_arr]
    simp only [Item.slice]
    split
    · rename_i h
      rw [arr_dims] at h
      rw [map_ok]
      constructor
      · rintro ⟨b, hb, rfl⟩; exact ⟨b, .inl ⟨h, hb⟩, rfl⟩
      · rintro ⟨b, ⟨-, hb⟩ | ⟨h', -⟩, rfl⟩
        · exact ⟨b, hb, rfl⟩
        · exact absurd h h'
    · rename_i h
      rw [arr_dims] at h
      rw [ok_eq]
      constructor
      · rintro rfl; exact ⟨a, .inr ⟨h, rfl⟩, rfl⟩
      · rintro ⟨b, ⟨h', -⟩ | ⟨-, rfl⟩, rfl⟩
        · exact absurd h' h
        · rfl
  | .group xs, y => by
    simp only [Item.slice]
    split
    · rw [map_ok, rel_group]
      constructor
      · rintro ⟨ys, hy, rfl⟩; exact ⟨ys, (items_slice ops d i xs ys).1 hy, rfl⟩
      · rintro ⟨ys, hy, rfl⟩; exact ⟨ys, (items_slice ops d i xs ys).2 hy, rfl⟩
    · rename_i h
      rw [group_dims] at h
      rw [ok_eq, item_rel_same]
      intro a b ha
      have hd : ¬ ops.Depends a d := fun hd => h ⟨a, has_group.1 ha, hd⟩
      simp [SliceRel, hd]

theorem items_slice (ops : Ops A I) (d : Dim) (i : I) : (xs ys : Items A) → (xs.slice ops d i = .ok ys ↔ Items.Rel (SliceRel ops d i) xs ys)
  | .nil, ys => by rw [rel_nil]; simp only [Items.slice]; exact ok_eq
  | .cons k x xs, zs => by
    rw [rel_cons]
    simp only [Items.slice]
    rw [cons_ok]
    constructor
    · rintro ⟨y, ys, h1, h2, rfl⟩; exact ⟨y, ys, (item_slice ops d i x y).1 h1, (items_slice ops d i xs ys).1 h2, rfl⟩
    · rintro ⟨y, ys, h1, h2, rfl⟩; exact ⟨y, ys, (item_slice ops d i x y).2 h1, (items_slice ops d i xs ys).2 h2, rfl⟩
end

mutual
theorem item_hasBins : (x : Item A) → (x.hasBins = false ↔ x.HasObject)
  | .obj o => by simp [Item.hasBins]; exact .obj o
  | .arr a => by simp only [Item.hasBins]; constructor
                 · intro h; cases h
                 · intro h; cases h
  | .group xs => by
    have := items_hasBins xs
    simp only [Item.hasBins]
    rw [this]
    constructor
    · exact .group xs
    · intro h; cases h; assumption

theorem items_hasBins : (xs : Items A) → (xs.hasBins = false ↔ xs.HasObject)
  | .nil => by simp only [Items.hasBins]; constructor
               · intro h; cases h
               · intro h; cases h
  | .cons k x xs => by
    simp only [Items.hasBins, Bool.and_eq_false_iff, item_hasBins x, items_hasBins xs]
    constructor
    · rintro (h | h)
      · exact .head _ _ _ h
      · exact .tail _ _ _ h
    · intro h
      cases h with
      | head _ _ _ h => exact .inl h
      | tail _ _ _ h => exact .inr h
end

theorem dims_nil {ops : Ops A I} {x : Item A} : x.dims ops = [] ↔ ∀ d, d ∉ x.dims ops := List.eq_nil_iff_forall_not_mem

mutual
theorem item_reduceAll (ops : Ops A I) : (x : Item A) → (∀ a, x.Has a → ops.binned a = true → ∃ d, ops.Depends a d) →
    ∀ y, (x.reduceAll ops = .ok y ↔ Item.Rel (ReduceAllRel ops) x y)
  | .obj o, _, y => by rw [rel_obj]; simp only [Item.reduceAll]; exact ok_eq
  | .arr a, _, y => by
    rw [rel_arr]
    simp only [Item.reduceAll]
    split
    · rename_i h
      simp only [dims_nil, arr_dims] at h
      rw [ok_eq]
      constructor
      · rintro rfl; exact ⟨a, .inr ⟨h.1, h.2, rfl⟩, rfl⟩
      · rintro ⟨b, ⟨⟨d, hd⟩ | hb, -⟩ | ⟨-, -, rfl⟩, rfl⟩
        · exact absurd hd (h.1 d)
        · rw [h.2] at hb; cases hb
        · rfl
    · rename_i h
      simp only [dims_nil, arr_dims] at h
      rw [map_ok]
      have h' : (∃ d, ops.Depends a d) ∨ ops.binned a = true := by
        by_cases hb : ops.binned a = true
        · exact .inr hb
        · left
          by_contra hd
          exact h ⟨fun d hd' => hd ⟨d, hd'⟩, by simpa using hb⟩
      constructor
      · rintro ⟨b, hb, rfl⟩; exact ⟨b, .inl ⟨h', hb⟩, rfl⟩
      · rintro ⟨b, ⟨-, hb⟩ | ⟨h1, h2, -⟩, rfl⟩
        · exact ⟨b, hb, rfl⟩
        · exact absurd ⟨h1, h2⟩ h
  | .group xs, hx, y => by
    simp only [Item.reduceAll]
    split
    · rename_i h
      simp only [dims_nil, group_dims] at h
      rw [ok_eq, item_rel_same]
      intro a b ha
      have hd : ∀ d, ¬ ops.Depends a d := fun d hd => h.1 d ⟨a, has_group.1 ha, hd⟩
      have hb : ops.binned a = false := by
        rw [Bool.eq_false_iff]
        intro hb
        obtain ⟨d, hd'⟩ := hx a ha hb
        exact hd d hd'
      simp [ReduceAllRel, hd, hb]
    · rw [map_ok, rel_group]
      have ih := items_reduceAll ops xs (fun a ha => hx a (.group _ _ ha))
      constructor
      · rintro ⟨ys, hy, rfl⟩; exact ⟨ys, (ih ys).1 hy, rfl⟩
      · rintro ⟨ys, hy, rfl⟩; exact ⟨ys, (ih ys).2 hy, rfl⟩

theorem items_reduceAll (ops : Ops A I) : (xs : Items A) → (∀ a, xs.Has a → ops.binned a = true → ∃ d, ops.Depends a d) →
    ∀ ys, (xs.reduceAll ops = .ok ys ↔ Items.Rel (ReduceAllRel ops) xs ys)
  | .nil, _, ys => by rw [rel_nil]; simp only [Items.reduceAll]; exact ok_eq
  | .cons k x xs, h, zs => by
    rw [rel_cons]
    simp only [Items.reduceAll]
    rw [cons_ok]
    have h1 := item_reduceAll ops x (fun a ha => h a (.head _ _ _ _ ha))
    have h2 := items_reduceAll ops xs (fun a ha => h a (.tail _ _ _ _ ha))
    constructor
    · rintro ⟨y, ys, a, b, rfl⟩; exact ⟨y, ys, (h1 y).1 a, (h2 ys).1 b, rfl⟩
    · rintro ⟨y, ys, a, b, rfl⟩; exact ⟨y, ys, (h1 y).2 a, (h2 ys).2 b, rfl⟩
end

theorem mem_common {ops : Ops A I} {ds : List Dim} {a : A} {d : Dim} : d ∈ common ops ds a ↔ d ∈ ds ∧ ops.Depends a d := by
  simp [common, Ops.Depends]

theorem common_nil {ops : Ops A I} {ds : List Dim} {a : A} : common ops ds a = [] ↔ ∀ d ∈ ds, ¬ ops.Depends a d := by
  rw [List.eq_nil_iff_forall_not_mem]
  simp only [mem_common]
  exact ⟨fun h d h1 h2 => h d ⟨h1, h2⟩, fun h d h' => h d h'.1 h'.2⟩

theorem toReduce_arr (ops : Ops A I) (ds : List Dim) (a : A) : toReduce ops ds (.arr a) = common ops ds a := by
  simp only [toReduce, common, Item.dims, Item.sizes, List.map_map]
  rfl

theorem mem_toReduce_group {ops : Ops A I} {ds : List Dim} {xs : Items A} {d : Dim} :
    d ∈ toReduce ops ds (.group xs) ↔ d ∈ ds ∧ ∃ a, xs.Has a ∧ ops.Depends a d := by
  simp only [toReduce, List.mem_filter, decide_eq_true_eq, group_dims]

theorem toReduce_group_nil {ops : Ops A I} {ds : List Dim} {xs : Items A} :
    toReduce ops ds (.group xs) = [] ↔ ∀ d ∈ ds, ∀ a, xs.Has a → ¬ ops.Depends a d := by
  rw [List.eq_nil_iff_forall_not_mem]
  simp only [mem_toReduce_group]
  constructor
  · intro h d hd a ha hda; exact h d ⟨hd, a, ha, hda⟩
  · rintro h d ⟨hd, a, ha, hda⟩; exact h d hd a ha hda

mutual
theorem item_rel_congr {R S : A → A → Prop} : (x : Item A) → (∀ a b, x.Has a → (R a b ↔ S a b)) → ∀ y, (Item.Rel R x y ↔ Item.Rel S x y)
  | .obj o, _, y => by rw [rel_obj, rel_obj]
  | .arr a, h, y => by
    rw [rel_arr, rel_arr]
    constructor
    · rintro ⟨b, hb, rfl⟩; exact ⟨b, (h a b (.arr a)).1 hb, rfl⟩
    · rintro ⟨b, hb, rfl⟩; exact ⟨b, (h a b (.arr a)).2 hb, rfl⟩
  | .group xs, h, y => by
    rw [rel_group, rel_group]
    have ih := items_rel_congr xs (fun a b ha => h a b (.group _ _ ha))
    constructor
    · rintro ⟨b, hb, rfl⟩; exact ⟨b, (ih b).1 hb, rfl⟩
    · rintro ⟨b, hb, rfl⟩; exact ⟨b, (ih b).2 hb, rfl⟩

theorem items_rel_congr {R S : A → A → Prop} : (xs : Items A) → (∀ a b, xs.Has a → (R a b ↔ S a b)) → ∀ ys, (Items.Rel R xs ys ↔ Items.Rel S xs ys)
  | .nil, _, ys => by rw [rel_nil, rel_nil]
  | .cons k x xs, h, zs => by
    rw [rel_cons, rel_cons]
    have h1 := item_rel_congr x (fun a b ha => h a b (.head _ _ _ _ ha))
    have h2 := items_rel_congr xs (fun a b ha => h a b (.tail _ _ _ _ ha))
    constructor
    · rintro ⟨y, ys, a, b, rfl⟩; exact ⟨y, ys, (h1 y).1 a, (h2 ys).1 b, rfl⟩
    · rintro ⟨y, ys, a, b, rfl⟩; exact ⟨y, ys, (h1 y).2 a, (h2 ys).2 b, rfl⟩
end

mutual
theorem item_touched {ops : Ops A I} {ds es : List Dim} : (x : Item A) → x.Touched ops ds →
    (∀ d ∈ ds, (∃ a, x.Has a ∧ ops.Depends a d) → d ∈ es) → x.Touched ops es
  | .obj o, _, _ => .obj o
  | .arr a, _, _ => .arr a
  | .group xs, h, he => by
    cases h with
    | group _ h hs =>
      refine .group xs ?_ (items_touched xs hs (fun d hd ⟨a, ha, hda⟩ => he d hd ⟨a, .group _ _ ha, hda⟩))
      rcases h with ⟨d, hd, a, ha, hda⟩ | h
      · exact .inl ⟨d, he d hd ⟨a, .group _ _ ha, hda⟩, a, ha, hda⟩
      · exact .inr h

theorem items_touched {ops : Ops A I} {ds es : List Dim} : (xs : Items A) → xs.Touched ops ds →
    (∀ d ∈ ds, (∃ a, xs.Has a ∧ ops.Depends a d) → d ∈ es) → xs.Touched ops es
  | .nil, _, _ => .nil
  | .cons k x xs, h, he => by
    cases h with
    | cons _ _ _ h hs =>
      exact .cons _ _ _ (item_touched x h (fun d hd ⟨a, ha, hda⟩ => he d hd ⟨a, .head _ _ _ _ ha, hda⟩))
        (items_touched xs hs (fun d hd ⟨a, ha, hda⟩ => he d hd ⟨a, .tail _ _ _ _ ha, hda⟩))
end

mutual
theorem item_reduce (ops : Ops A I) : (x : Item A) → (ds : List Dim) → x.Touched ops ds →
    (∀ a, x.Has a → ops.binned a = true → ∃ d ∈ ds, ops.Depends a d) → ∀ y, (x.reduce ops ds = .ok y ↔ Item.Rel (ReduceRel ops ds) x y)
  | .obj o, _, _, _, y => by rw [rel_obj]; simp only [Item.reduce]; exact ok_eq
  | .arr a, ds, _, hb, y => by
    have same : common ops ds a = [] → (Except.ok (Item.arr a) = Except.ok (ε := Err) y ↔ Item.Rel (ReduceRel ops ds) (.arr a) y) := by
      intro h
      rw [ok_eq, item_rel_same]
      intro b c hc
      rw [has_arr] at hc
      subst hc
      simp [ReduceRel, h]
    simp only [Item.reduce, toReduce_arr]
    split
    · rename_i h
      simp only [dims_nil, arr_dims] at h
      exact same (common_nil.2 (fun d _ => h.1 d))
    · split
      · rename_i h
        split
        · rename_i hb'
          obtain ⟨d, hd, hda⟩ := hb a (.arr a) hb'
          exact absurd hda (common_nil.1 h d hd)
        · exact same h
      · rename_i h
        rw [map_ok, rel_arr]
        constructor
        · rintro ⟨b, hb, rfl⟩; exact ⟨b, .inl ⟨h, hb⟩, rfl⟩
        · rintro ⟨b, ⟨-, hb⟩ | ⟨h', -⟩, rfl⟩
          · exact ⟨b, hb, rfl⟩
          · exact absurd h' h
  | .group xs, ds, ht, hb, y => by
    have same : (∀ d ∈ ds, ∀ a, xs.Has a → ¬ ops.Depends a d) →
        (Except.ok (Item.group xs) = Except.ok (ε := Err) y ↔ Item.Rel (ReduceRel ops ds) (.group xs) y) := by
      intro h
      rw [ok_eq, item_rel_same]
      intro b c hc
      rw [has_group] at hc
      have : common ops ds b = [] := common_nil.2 (fun d hd => h d hd b hc)
      simp [ReduceRel, this]
    simp only [Item.reduce]
    split
    · rename_i h
      simp only [dims_nil, group_dims] at h
      exact same (fun d _ a ha hda => h.1 d ⟨a, ha, hda⟩)
    · split
      · rename_i h
        rw [toReduce_group_nil] at h
        split
        · rename_i hbins
          cases ht with
          | group _ h' hs =>
            rcases h' with ⟨d, hd, a, ha, hda⟩ | h'
            · exact absurd hda (h d hd a ha)
            · rw [(items_hasBins xs).2 h'] at hbins; cases hbins
        · exact same h
      · rw [map_ok]
        have hs : xs.Touched ops ds := by cases ht with | group _ _ hs => exact hs
        have ih := items_reduce ops xs (toReduce ops ds (.group xs)) (items_touched xs hs (fun d hd h => mem_toReduce_group.2 ⟨hd, h⟩))
          (fun a ha hba => by
            obtain ⟨d, hd, hda⟩ := hb a (.group _ _ ha) hba
            exact ⟨d, mem_toReduce_group.2 ⟨hd, a, ha, hda⟩, hda⟩)
        have hc : ∀ a b, xs.Has a → (ReduceRel ops (toReduce ops ds (.group xs)) a b ↔ ReduceRel ops ds a b) := by
          intro a b ha
          have : common ops (toReduce ops ds (.group xs)) a = common ops ds a := by
            simp only [common, toReduce, List.filter_filter]
            apply List.filter_congr
            intro d _
            by_cases hd : d ∈ (ops.sizes a).map Prod.fst
            · have : d ∈ (Item.group xs).dims ops := group_dims.2 ⟨a, ha, by simpa [Ops.Depends] using hd⟩
              simp only [hd, this, decide_true, Bool.and_true]
            · simp only [hd, decide_false, Bool.false_and]
          simp only [ReduceRel, this]
        rw [rel_group]
        constructor
        · rintro ⟨ys, hy, rfl⟩; exact ⟨ys, (items_rel_congr xs hc ys).1 ((ih ys).1 hy), rfl⟩
        · rintro ⟨ys, hy, rfl⟩; exact ⟨ys, (ih ys).2 ((items_rel_congr xs hc ys).2 hy), rfl⟩

theorem items_reduce (ops : Ops A I) : (xs : Items A) → (ds : List Dim) → xs.Touched ops ds →
    (∀ a, xs.Has a → ops.binned a = true → ∃ d ∈ ds, ops.Depends a d) → ∀ ys, (xs.reduce ops ds = .ok ys ↔ Items.Rel (ReduceRel ops ds) xs ys)
  | .nil, _, _, _, ys => by rw [rel_nil]; simp only [Items.reduce]; exact ok_eq
  | .cons k x xs, ds, ht, hb, zs => by
    rw [rel_cons]
    simp only [Items.reduce]
    rw [cons_ok]
    have h1 := item_reduce ops x ds (by cases ht; assumption) (fun a ha => hb a (.head _ _ _ _ ha))
    have h2 := items_reduce ops xs ds (by cases ht; assumption) (fun a ha => hb a (.tail _ _ _ _ ha))
    constructor
    · rintro ⟨y, ys, a, b, rfl⟩; exact ⟨y, ys, (h1 y).1 a, (h2 ys).1 b, rfl⟩
    · rintro ⟨y, ys, a, b, rfl⟩; exact ⟨y, ys, (h1 y).2 a, (h2 ys).2 b, rfl⟩
end

mutual
theorem item_transform (ops : Ops A I) (ds : List Dim) : (x y : Item A) → (x.transform ops ds = .ok y ↔ Item.Rel (TransformRel ops ds) x y)
  | .obj o, y => by rw [rel_obj]; simp only [Item.transform]; exact ok_eq
  | .arr a, y => by
    simp only [Item.transform, toReduce_arr]
    split
    · rename_i h
      rw [common_nil] at h
      rw [ok_eq, item_rel_same]
      intro b c hc
      rw [has_arr] at hc
      subst hc
      have : ¬ ∃ d ∈ ds, ops.Depends b d := fun ⟨d, hd, hda⟩ => h d hd hda
      simp only [TransformRel, this, false_and, false_or]
      exact ⟨fun h => h.2, fun h' => ⟨h, h'⟩⟩
    · rename_i h
      have h' : ∃ d ∈ ds, ops.Depends a d := by
        by_contra hx
        exact h (common_nil.2 (fun d hd hda => hx ⟨d, hd, hda⟩))
      rw [map_ok, rel_arr]
      constructor
      · rintro ⟨b, hb, rfl⟩; exact ⟨b, .inl ⟨h', hb⟩, rfl⟩
      · rintro ⟨b, ⟨-, hb⟩ | ⟨h1, -⟩, rfl⟩
        · exact ⟨b, hb, rfl⟩
        · obtain ⟨d, hd, hda⟩ := h'
          exact absurd hda (h1 d hd)
  | .group xs, y => by
    simp only [Item.transform]
    split
    · rename_i h
      rw [toReduce_group_nil] at h
      rw [ok_eq, item_rel_same]
      intro b c hc
      rw [has_group] at hc
      have h1 : ∀ d ∈ ds, ¬ ops.Depends b d := fun d hd => h d hd b hc
      have h2 : ¬ ∃ d ∈ ds, ops.Depends b d := fun ⟨d, hd, hda⟩ => h1 d hd hda
      simp only [TransformRel, h2, false_and, false_or]
      exact ⟨fun h => h.2, fun h' => ⟨h1, h'⟩⟩
    · rw [map_ok, rel_group]
      constructor
      · rintro ⟨ys, hy, rfl⟩; exact ⟨ys, (items_transform ops ds xs ys).1 hy, rfl⟩
      · rintro ⟨ys, hy, rfl⟩; exact ⟨ys, (items_transform ops ds xs ys).2 hy, rfl⟩

theorem items_transform (ops : Ops A I) (ds : List Dim) : (xs ys : Items A) → (xs.transform ops ds = .ok ys ↔ Items.Rel (TransformRel ops ds) xs ys)
  | .nil, ys => by rw [rel_nil]; simp only [Items.transform]; exact ok_eq
  | .cons k x xs, zs => by
    rw [rel_cons]
    simp only [Items.transform]
    rw [cons_ok]
    constructor
    · rintro ⟨y, ys, h1, h2, rfl⟩; exact ⟨y, ys, (item_transform ops ds x y).1 h1, (items_transform ops ds xs ys).1 h2, rfl⟩
    · rintro ⟨y, ys, h1, h2, rfl⟩; exact ⟨y, ys, (item_transform ops ds x y).2 h1, (items_transform ops ds xs ys).2 h2, rfl⟩
end

mutual
/-- Every array of the tree is related to some array. -/
theorem item_rel_has {R : A → A → Prop} {a : A} : (x y : Item A) → Item.Rel R x y → x.Has a → ∃ b, R a b
  | .obj o, _, _, ha => absurd ha not_has_obj
  | .arr c, y, h, ha => by
    rw [rel_arr] at h
    rw [has_arr] at ha
    subst ha
    obtain ⟨b, hb, -⟩ := h
    exact ⟨b, hb⟩
  | .group xs, y, h, ha => by
    rw [rel_group] at h
    obtain ⟨ys, hy, -⟩ := h
    exact items_rel_has xs ys hy (has_group.1 ha)

theorem items_rel_has {R : A → A → Prop} {a : A} : (xs ys : Items A) → Items.Rel R xs ys → xs.Has a → ∃ b, R a b
  | .nil, _, _, ha => absurd ha not_has_nil
  | .cons k x xs, zs, h, ha => by
    rw [rel_cons] at h
    obtain ⟨y, ys, h1, h2, -⟩ := h
    rcases has_cons.1 ha with ha | ha
    · exact item_rel_has x y h1 ha
    · exact items_rel_has xs ys h2 ha
end

theorem along_leaf {x : Item A} (h : ∀ xs, x ≠ .group xs) (p : List Nat) : x.along p = some x := by
  cases x with
  | obj o => simp [Item.along]
  | arr a => simp [Item.along]
  | group xs => exact absurd rfl (h xs)

theorem at_leaf {x : Item A} (h : ∀ xs, x ≠ .group xs) (k : Nat) (p : List Nat) : x.at_ (k :: p) = none := by
  cases x with
  | obj o => simp [Item.at_]
  | arr a => simp [Item.at_]
  | group xs => exact absurd rfl (h xs)

mutual
theorem binary_along {f : Item A → Item A → Except Err (Item A)} (hf : ∀ x y r, f x y = .ok r → ∀ zs, r ≠ .group zs) {x y r : Item A}
    (h : Binary f x y r) (p : List Nat) (l : Item A) (hl : r.at_ p = some l) (hn : ∀ zs, l ≠ .group zs) :
    ∃ u v, x.along p = some u ∧ y.along p = some v ∧ f u v = .ok l :=
  match h with
  | .both xs ys rs _ hr => by
    cases p with
    | nil => simp only [Item.at_, Option.some.injEq] at hl; exact absurd hl.symm (hn rs)
    | cons k q =>
      simp only [Item.at_] at hl
      obtain ⟨x, y, hx, hy, u, v, h1, h2, h3⟩ := binaryItems_along hf hr k q l hl hn
      exact ⟨u, v, by simp only [Item.along, hx, Option.bind_some, h1], by simp only [Item.along, hy, Option.bind_some, h2], h3⟩
  | .left xs rs y hy' _ hr => by
    cases p with
    | nil => simp only [Item.at_, Option.some.injEq] at hl; exact absurd hl.symm (hn rs)
    | cons k q =>
      simp only [Item.at_] at hl
      obtain ⟨x, y', hx, hy, u, v, h1, h2, h3⟩ := binaryItems_along hf hr k q l hl hn
      simp only [Option.some.injEq] at hy
      subst hy
      rw [along_leaf hy'] at h2
      exact ⟨u, v, by simp only [Item.along, hx, Option.bind_some, h1], by rw [along_leaf hy']; exact h2, h3⟩
  | .right ys rs x hx' _ hr => by
    cases p with
    | nil => simp only [Item.at_, Option.some.injEq] at hl; exact absurd hl.symm (hn rs)
    | cons k q =>
      simp only [Item.at_] at hl
      obtain ⟨x', y, hx, hy, u, v, h1, h2, h3⟩ := binaryItems_along hf hr k q l hl hn
      simp only [Option.some.injEq] at hx
      subst hx
      rw [along_leaf hx'] at h1
      exact ⟨u, v, by rw [along_leaf hx']; exact h1, by simp only [Item.along, hy, Option.bind_some, h2], h3⟩
  | .leaf x y r hx hy hr => by
    cases p with
    | nil =>
      simp only [Item.at_, Option.some.injEq] at hl
      subst hl
      exact ⟨x, y, along_leaf hx _, along_leaf hy _, hr⟩
    | cons k q => rw [at_leaf (hf _ _ _ hr)] at hl; cases hl

theorem binaryItems_along {f : Item A → Item A → Except Err (Item A)} (hf : ∀ x y r, f x y = .ok r → ∀ zs, r ≠ .group zs)
    {a b : Nat → Option (Item A)} {rs : Items A} (h : BinaryItems f a b rs) (k : Nat) (q : List Nat) (l : Item A)
    (hl : (rs.get k).bind (fun x => x.at_ q) = some l) (hn : ∀ zs, l ≠ .group zs) :
    ∃ x y, a k = some x ∧ b k = some y ∧ ∃ u v, x.along q = some u ∧ y.along q = some v ∧ f u v = .ok l :=
  match h with
  | .nil a b => by simp [Items.get] at hl
  | .cons a b k' x y r rs ha hb h hs => by
    simp only [Items.get] at hl
    split at hl
    · rename_i hk
      subst hk
      exact ⟨x, y, ha, hb, binary_along hf h q l hl hn⟩
    · exact binaryItems_along hf hs k q l hl hn
end

end Scipp.DG
