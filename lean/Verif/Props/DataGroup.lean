import Verif.Lemmas.DataGroup
/-
C111: operations on groups act on the arrays in the group.
-/
namespace Scipp.Props
open Scipp Scipp.DG
variable {A I : Type}

/-- **C111**: `dims` and `sizes` of a group: a dim is listed (once) if and only if an array at any depth has it, and its size is `n` if and only if all these
arrays have size `n`; otherwise it is `None`. -/
theorem C111_sizes (ops : Ops A I) (xs : Items A) (d : Dim) :
    ((Item.group xs).dims ops).Nodup ∧
    (d ∈ (Item.group xs).dims ops ↔ ∃ a, xs.Has a ∧ ops.Depends a d) ∧
    ∀ n, (d, some n) ∈ (Item.group xs).sizes ops ↔
      (∃ a, xs.Has a ∧ ops.Depends a d) ∧ ∀ a m, xs.Has a → (d, m) ∈ ops.sizes a → m = n := by
  have hn : ((Item.group xs).dims ops).Nodup := by
    simp only [Item.dims, Item.sizes]
    exact combine_nodup _
  refine ⟨hn, group_dims, fun n => ?_⟩
  have hs := item_sizes ops d n (.group xs)
  simp only [has_group] at hs
  rw [← hs]
  constructor
  · intro h
    refine ⟨group_dims.1 (mem_dims.2 ⟨_, h⟩), fun s h' => ?_⟩
    have := List.inj_on_of_nodup_map hn h h' rfl
    simpa using this.symm
  · rintro ⟨h1, h2⟩
    obtain ⟨s, hs⟩ := mem_dims.1 (group_dims.2 h1)
    rw [h2 s hs] at hs
    exact hs

/-- An array for the examples: its sizes and whether it is binned. -/
private abbrev Ex := List (Dim × Nat) × Bool

/-- Slicing out a position, reducing to the other dims, transposing. -/
private def exOps : Ops Ex Nat where
  sizes := fun a => a.1
  binned := fun a => a.2
  slice := fun d i a => if (a.1.lookup d).getD 0 ≤ i then .error .slice else .ok (a.1.filter (fun p => p.1 != d), a.2)
  reduceAll := fun _ => .ok ([], false)
  reduce := fun ds a => if ds.all (fun d => (a.1.map Prod.fst).contains d) then .ok (a.1.filter (fun p => !ds.contains p.1), false) else .error .dimension
  transform := fun ds a =>
    if ds.all (fun d => (a.1.map Prod.fst).contains d) && ds.length == a.1.length then .ok (ds.map (fun d => (d, (a.1.lookup d).getD 0)), a.2)
    else .error .dimension

/-- Dims `x` = 1, `y` = 2. -/
private def exGroup : Items Ex :=
  .cons 10 (.arr ([(1, 4), (2, 3)], false)) (.cons 11 (.obj 7) (.cons 12 (.group (.cons 20 (.arr ([(1, 4)], false)) (.cons 21 (.arr ([(2, 5)], false)) .nil))) .nil))

example : (Item.group exGroup).sizes exOps = [(1, some 4), (2, none)] := by decide

example : (1, some 4) ∈ (Item.group exGroup).sizes exOps := by decide

/-- **C111**: slicing a group slices the arrays that have the dim, at any depth, and leaves everything else as it is; it succeeds if and only if all these slices do. -/
theorem C111_slice (ops : Ops A I) (d : Dim) (i : I) (xs ys : Items A) :
    xs.slice ops d i = .ok ys ↔ Items.Rel (SliceRel ops d i) xs ys := items_slice ops d i xs ys

example : ∃ ys, exGroup.slice exOps 1 2 = .ok ys ∧ (Item.group ys).sizes exOps = [(2, none)] := ⟨_, rfl, by decide⟩

example : Items.Rel (SliceRel exOps 1 2) exGroup
    (.cons 10 (.arr ([(2, 3)], false)) (.cons 11 (.obj 7) (.cons 12 (.group (.cons 20 (.arr ([], false)) (.cons 21 (.arr ([(2, 5)], false)) .nil))) .nil))) :=
  (C111_slice exOps 1 2 _ _).1 rfl

/-- **C111**, negation: positional indexing is documented to require that the size of the indexed dim is unique, but this is not checked: slicing acts on every
item that is long enough, whatever the sizes. -/
theorem C111_wrong_positional : ∃ (xs ys : Items Ex) (i : Nat), (1, none) ∈ (Item.group xs).sizes exOps ∧ xs.slice exOps 1 i = .ok ys :=
  ⟨.cons 10 (.arr ([(1, 4)], false)) (.cons 11 (.arr ([(1, 5)], false)) .nil), _, 3, by decide, rfl⟩

/-- **C111**: a reduction of a group without dims reduces every array with dims (or bins) and leaves everything else as it is, provided that binned arrays
are not scalar. -/
theorem C111_reduce_all_partial (ops : Ops A I) (xs ys : Items A) (h : ∀ a, xs.Has a → ops.binned a = true → ∃ d, ops.Depends a d) :
    xs.reduceAll ops = .ok ys ↔ Items.Rel (ReduceAllRel ops) xs ys := items_reduceAll ops xs h ys

private theorem exGroup_has {a : Ex} (h : exGroup.Has a) : a = ([(1, 4), (2, 3)], false) ∨ a = ([(1, 4)], false) ∨ a = ([(2, 5)], false) := by
  simp only [exGroup, has_cons, has_arr, has_group, not_has_obj, not_has_nil, or_false, false_or] at h
  exact h

example : Items.Rel (ReduceAllRel exOps) exGroup
    (.cons 10 (.arr ([], false)) (.cons 11 (.obj 7) (.cons 12 (.group (.cons 20 (.arr ([], false)) (.cons 21 (.arr ([], false)) .nil))) .nil))) :=
  (C111_reduce_all_partial exOps _ _ (fun a ha hb => by rcases exGroup_has ha with rfl | rfl | rfl <;> cases hb)).1 rfl

/-- **C111**, negation: a scalar binned array next to a Python object in a nested group is not reduced, though it is without the object. -/
theorem C111_wrong_scalar_bins (k l m : Nat) (a b : A) (ops : Ops A I) (hs : ops.sizes a = []) (hb : ops.binned a = true) (hr : ops.reduceAll a = .ok b) :
    (Items.cons k (.group (.cons l (.arr a) .nil)) .nil).reduceAll ops = .ok (.cons k (.group (.cons l (.arr b) .nil)) .nil) ∧
    (Items.cons k (.group (.cons l (.arr a) (.cons m (.obj 0) .nil))) .nil).reduceAll ops =
      .ok (.cons k (.group (.cons l (.arr a) (.cons m (.obj 0) .nil))) .nil) := by
  have h1 : (Item.arr a).dims ops = [] := by simp [Item.dims, Item.sizes, hs]
  have h2 : (Item.group (.cons l (.arr a) (.cons m (.obj 0) .nil))).dims ops = [] := by simp [Item.dims, Item.sizes, Items.entries, hs, combine]
  constructor
  · simp only [Items.reduceAll, Item.reduceAll, Items.hasBins, Item.hasBins, hb, hr, h1, Bool.and_self, Bool.true_eq_false, and_false, if_false]
    rfl
  · simp only [Items.reduceAll, Item.reduceAll, Items.hasBins, Item.hasBins, h2]
    rfl

example : (Items.cons 1 (.group (.cons 2 (.arr (([], true) : Ex)) (.cons 3 (.obj 0) .nil))) .nil).reduceAll exOps =
    .ok (.cons 1 (.group (.cons 2 (.arr ([], true)) (.cons 3 (.obj 0) .nil))) .nil) :=
  (C111_wrong_scalar_bins 1 2 3 ([], true) ([], false) exOps rfl rfl rfl).2

/-- **C111**: a reduction of a group over dims `ds` reduces the arrays that have one of these dims over those they have, and leaves everything else as it is,
provided that every binned array has one of the dims and every nested group depends on one of them or contains a Python object. -/
theorem C111_reduce_partial (ops : Ops A I) (ds : List Dim) (xs ys : Items A) (ht : xs.Touched ops ds)
    (hb : ∀ a, xs.Has a → ops.binned a = true → ∃ d ∈ ds, ops.Depends a d) :
    xs.reduce ops ds = .ok ys ↔ Items.Rel (ReduceRel ops ds) xs ys := items_reduce ops xs ds ht hb ys

example : Items.Rel (ReduceRel exOps [1]) exGroup
    (.cons 10 (.arr ([(2, 3)], false)) (.cons 11 (.obj 7) (.cons 12 (.group (.cons 20 (.arr ([], false)) (.cons 21 (.arr ([(2, 5)], false)) .nil))) .nil))) :=
  (C111_reduce_partial exOps [1] _ _
    (.cons _ _ _ (.arr _) (.cons _ _ _ (.obj _) (.cons _ _ _
      (.group _ (.inl ⟨1, by simp, _, .head _ _ _ _ (.arr _), 4, by simp [exOps]⟩) (.cons _ _ _ (.arr _) (.cons _ _ _ (.arr _) .nil))) .nil)))
    (fun a ha hb => by rcases exGroup_has ha with rfl | rfl | rfl <;> cases hb)).1 rfl

/-- **C111**, negation: a nested group of arrays none of which has the dims is not left as it is: everything in it is reduced over all dims. (The `bins` property
of a group is a group, and thus never `None`.) -/
theorem C111_wrong_nested (ops : Ops A I) (ds : List Dim) (xs : Items A) (hd : ∀ d ∈ ds, ∀ a, xs.Has a → ¬ ops.Depends a d) (ho : ¬ xs.HasObject) :
    (Item.group xs).reduce ops ds = (Item.group xs).reduceAll ops := by
  have hb : xs.hasBins = true := by
    by_contra h
    exact ho ((items_hasBins xs).1 (by simpa using h))
  simp only [Item.reduce, Item.reduceAll, toReduce_group_nil.2 hd, hb, if_true]

example : (Items.cons 10 (.group (.cons 20 (.arr (([(2, 3)], false) : Ex)) .nil)) (.cons 11 (.arr ([(2, 3)], false)) .nil)).reduce exOps [1] =
    .ok (.cons 10 (.group (.cons 20 (.arr ([], false)) .nil)) (.cons 11 (.arr ([(2, 3)], false)) .nil)) := rfl

/-- **C111**, negation: a binned array without the dims is reduced over all its dims; `squeeze` removes other dims than those asked for. -/
theorem C111_wrong_binned (ops : Ops A I) (ds : List Dim) (a : A) (hd : ∀ d ∈ ds, ¬ ops.Depends a d) (hb : ops.binned a = true) :
    (Item.arr a).reduce ops ds = (ops.reduceAll a).map .arr := by
  simp only [Item.reduce, toReduce_arr, common_nil.2 hd, hb]
  simp

example : (Items.cons 10 (.arr (([(1, 4), (2, 3)], true) : Ex)) (.cons 11 (.arr ([(2, 3)], true)) .nil)).reduce exOps [1] =
    .ok (.cons 10 (.arr ([(2, 3)], false)) (.cons 11 (.arr ([], false)) .nil)) := rfl

/-- **C111**: `flatten`, `fold` and `transpose` with dims act on the arrays that have one of the dims, at any depth. -/
theorem C111_transform (ops : Ops A I) (ds : List Dim) (xs ys : Items A) :
    xs.transform ops ds = .ok ys ↔ Items.Rel (TransformRel ops ds) xs ys := items_transform ops ds xs ys

example : Items.Rel (TransformRel exOps [2, 1]) (.cons 10 (.arr ([(1, 4), (2, 3)], false)) (.cons 11 (.arr ([(5, 4)], false)) .nil))
    (.cons 10 (.arr ([(2, 3), (1, 4)], false)) (.cons 11 (.arr ([(5, 4)], false)) .nil)) :=
  (C111_transform exOps [2, 1] _ _).1 rfl

/-- **C111**, negation: if the transformation needs all the dims (as `transpose` and `flatten` do), an array with some of them makes the operation on the
group fail. -/
theorem C111_wrong_transform (ops : Ops A I) (ds : List Dim) (xs ys : Items A) (a : A) (d d' : Dim)
    (hop : ∀ a d, d ∈ ds → ¬ ops.Depends a d → ∀ b, ops.transform ds a ≠ .ok b)
    (ha : xs.Has a) (hd : d ∈ ds) (hda : ops.Depends a d) (hd' : d' ∈ ds) (hda' : ¬ ops.Depends a d') : xs.transform ops ds ≠ .ok ys := by
  intro h
  obtain ⟨b, ⟨-, hb⟩ | ⟨h', -⟩⟩ := items_rel_has xs ys ((C111_transform ops ds xs ys).1 h) ha
  · exact hop a d' hd' hda' b hb
  · exact h' d hd hda

example : ∀ ys, exGroup.transform exOps [2, 1] ≠ .ok ys := by
  intro ys
  refine C111_wrong_transform exOps [2, 1] exGroup ys ([(1, 4)], false) 1 2 ?_ ?_ (by simp) ⟨4, by simp [exOps]⟩ (by simp) (by simp [Ops.Depends, exOps])
  · intro a d hd hn b
    have : (a.1.map Prod.fst).contains d = false := by
      simpa [Ops.Depends, exOps] using hn
    have h2 : ([2, 1] : List Dim).all (fun d => (a.1.map Prod.fst).contains d) = false := by
      rw [List.all_eq_false]
      exact ⟨d, hd, by simp only [this]; simp⟩
    simp only [exOps, h2]
    simp
  · simp only [exGroup, has_cons, has_arr, has_group]
    simp

/-- **C111**: the function (`scipp.sum(group, dim)`) and the method (`group.sum(dim)`) agree if all items are arrays with the dim. -/
theorem C111_function_partial (ops : Ops A I) (d : Dim) (xs : List (Nat × A)) (h : ∀ p ∈ xs, ops.Depends p.2 d) :
    (xs.foldr (fun p acc => Items.cons p.1 (.arr p.2) acc) .nil).functionReduce ops d =
      (xs.foldr (fun p acc => Items.cons p.1 (.arr p.2) acc) .nil).reduce ops [d] := by
  induction xs with
  | nil => rfl
  | cons p xs ih =>
    have hp := h p (by simp)
    have hc : common ops [d] p.2 = [d] := by
      simp only [common]
      rw [List.filter_eq_self.2]
      intro e he
      simp only [List.mem_singleton] at he
      subst he
      simpa [Ops.Depends] using hp
    have hne : (Item.arr p.2).dims ops ≠ [] := fun h' => by
      rw [dims_nil] at h'
      exact h' d (arr_dims.2 hp)
    simp only [List.foldr_cons, Items.functionReduce, Items.reduce, Item.reduce, toReduce_arr, hc, hne, false_and, if_false]
    rw [ih (fun q hq => h q (by simp [hq]))]
    rfl

example : (Items.cons 10 (.arr (([(1, 4), (2, 3)], false) : Ex)) (.cons 11 (.arr ([(1, 5)], false)) .nil)).functionReduce exOps 1 =
    (Items.cons 10 (.arr (([(1, 4), (2, 3)], false) : Ex)) (.cons 11 (.arr ([(1, 5)], false)) .nil)).reduce exOps [1] :=
  C111_function_partial exOps 1 [(10, ([(1, 4), (2, 3)], false)), (11, ([(1, 5)], false))] (by
    intro p hp
    simp only [List.mem_cons, List.not_mem_nil, or_false] at hp
    rcases hp with rfl | rfl
    · exact ⟨4, by simp [exOps]⟩
    · exact ⟨5, by simp [exOps]⟩)

/-- **C111**, negation: with a Python object or a nested group in the group, or an array without the dim, the function fails, whereas the method works. -/
theorem C111_wrong_function (ops : Ops A I) (d : Dim) (k : Nat) (x : Item A) (xs ys : Items A)
    (hop : ∀ a, ¬ ops.Depends a d → ∀ b, ops.reduce [d] a ≠ .ok b) (hx : ∀ a, x = .arr a → ¬ ops.Depends a d) :
    (Items.cons k x xs).functionReduce ops d ≠ .ok ys := by
  intro h
  simp only [Items.functionReduce] at h
  cases x with
  | obj o => cases h
  | group zs => cases h
  | arr a =>
    have := hop a (hx a rfl)
    cases hr : ops.reduce [d] a with
    | ok b => exact this b hr
    | error e => simp [hr, Except.map, bind, Except.bind] at h

example : (∀ ys, exGroup.functionReduce exOps 3 ≠ .ok ys) ∧ ∃ ys, (Items.cons 9 (.arr (([(3, 2)], false) : Ex)) exGroup).reduce exOps [1] = .ok ys := by
  refine ⟨fun ys => C111_wrong_function exOps 3 10 _ _ ys ?_ ?_, _, rfl⟩
  · intro a hn b
    have : (a.1.map Prod.fst).contains 3 = false := by simpa [Ops.Depends, exOps] using hn
    have h2 : ([3] : List Dim).all (fun d => (a.1.map Prod.fst).contains d) = false := by
      rw [List.all_eq_false]
      exact ⟨3, by simp, by simp only [this]; simp⟩
    simp only [exOps, h2]
    simp
  · intro a ha
    cases ha
    simp [Ops.Depends, exOps]

/-- **C111**: item-wise operations of two operands, of which one or both are groups, nested to any depth: whatever is in the result at the end of a path of names
is the result of the operation on what the operands have there; an operand that is not a group is used for all names. -/
theorem C111_binary (f : Item A → Item A → Except Err (Item A)) (hf : ∀ x y r, f x y = .ok r → ∀ zs, r ≠ .group zs) (x y r l : Item A) (p : List Nat)
    (h : Binary f x y r) (hl : r.at_ p = some l) (hn : ∀ zs, l ≠ .group zs) :
    ∃ u v, x.along p = some u ∧ y.along p = some v ∧ f u v = .ok l := binary_along hf h p l hl hn

/-- **C111**: the names in the result of an operation of two groups are those in both; with one group, its names in its order. -/
theorem C111_binary_names (f : Item A → Item A → Except Err (Item A)) (xs : Items A) (y : Item A) (rs : Items A)
    (h : Binary f (.group xs) y (.group rs)) :
    (∀ ys, y = .group ys → ∀ k, k ∈ rs.keys ↔ k ∈ xs.keys ∧ k ∈ ys.keys) ∧ ((∀ ys, y ≠ .group ys) → rs.keys = xs.keys) := by
  cases h with
  | both _ ys _ h hr =>
    refine ⟨?_, fun h' => absurd rfl (h' ys)⟩
    rintro ys' hy k
    cases hy
    rw [h.mem_iff]
    simp
  | left _ _ _ hy h hr => exact ⟨fun ys e => absurd e (hy ys), fun _ => h⟩
  | right ys _ _ hx h hr => exact absurd rfl (hx xs)
  | leaf _ _ _ hx hy hf => exact absurd rfl (hx xs)

/-- Adding numbers, for the examples. -/
private def exAdd : Item Nat → Item Nat → Except Err (Item Nat)
  | .arr a, .arr b => .ok (.arr (a + b))
  | _, _ => .error .dtype

private def exPair (a b : Nat) : Items Nat := .cons 1 (.arr a) (.cons 2 (.arr b) .nil)

private theorem ex_binary : Binary exAdd (.group (exPair 3 4)) (.group (exPair 10 20)) (.group (.cons 2 (.arr 24) (.cons 1 (.arr 13) .nil))) :=
  .both _ _ _ (by simp [exPair, Items.keys]; exact List.Perm.swap 1 2 [])
    (.cons _ _ _ (.arr 4) (.arr 20) _ _ rfl rfl (.leaf _ _ _ (by simp) (by simp) rfl)
      (.cons _ _ _ (.arr 3) (.arr 10) _ _ rfl rfl (.leaf _ _ _ (by simp) (by simp) rfl) (.nil _ _)))

private theorem ex_nonGroup (x y r : Item Nat) (h : exAdd x y = .ok r) (zs : Items Nat) : r ≠ .group zs := by
  cases x <;> cases y <;> simp [exAdd] at h
  subst h
  simp

example : ∃ u v, (Item.group (exPair 3 4)).along [2] = some u ∧ (Item.group (exPair 10 20)).along [2] = some v ∧ exAdd u v = .ok (.arr 24) :=
  C111_binary exAdd ex_nonGroup _ _ _ _ [2] ex_binary rfl (by simp)

/-- **C111**, negation: the order of the items in the result of an operation of two groups is not determined, even if both groups have the same names in the same
order. -/
theorem C111_wrong_order : ∃ (x y r r' : Items Nat), Binary exAdd (.group x) (.group y) (.group r) ∧ Binary exAdd (.group x) (.group y) (.group r') ∧
    x.keys = y.keys ∧ r.keys ≠ r'.keys ∧ r'.keys ≠ x.keys :=
  ⟨exPair 3 4, exPair 10 20, exPair 13 24, _,
    .both _ _ _ (by simp [exPair, Items.keys])
      (.cons _ _ _ (.arr 3) (.arr 10) _ _ rfl rfl (.leaf _ _ _ (by simp) (by simp) rfl)
        (.cons _ _ _ (.arr 4) (.arr 20) _ _ rfl rfl (.leaf _ _ _ (by simp) (by simp) rfl) (.nil _ _))),
    ex_binary, rfl, by decide, by decide⟩

end Scipp.Props
