import Verif.Model.DataGroup
/-
Vocabulary for operations on groups: what happens to the arrays in the group, at any depth.
-/
namespace Scipp.DG
variable {A I : Type}

mutual
/-- The same tree of names and Python objects, with arrays related by `R`. -/
inductive Item.Rel (R : A → A → Prop) : Item A → Item A → Prop
  | obj (o : Nat) : Item.Rel R (.obj o) (.obj o)
  | arr (a b : A) (h : R a b) : Item.Rel R (.arr a) (.arr b)
  | group (xs ys : Items A) (h : Items.Rel R xs ys) : Item.Rel R (.group xs) (.group ys)

/-- The same names in the same order, with related items. -/
inductive Items.Rel (R : A → A → Prop) : Items A → Items A → Prop
  | nil : Items.Rel R .nil .nil
  | cons (k : Nat) (x y : Item A) (xs ys : Items A) (h : Item.Rel R x y) (hs : Items.Rel R xs ys) : Items.Rel R (.cons k x xs) (.cons k y ys)
end

mutual
/-- `a` is an array in the tree. -/
inductive Item.Has : Item A → A → Prop
  | arr (a : A) : Item.Has (.arr a) a
  | group (xs : Items A) (a : A) (h : Items.Has xs a) : Item.Has (.group xs) a

/-- `a` is an array in one of the items. -/
inductive Items.Has : Items A → A → Prop
  | head (k : Nat) (x : Item A) (xs : Items A) (a : A) (h : Item.Has x a) : Items.Has (.cons k x xs) a
  | tail (k : Nat) (x : Item A) (xs : Items A) (a : A) (h : Items.Has xs a) : Items.Has (.cons k x xs) a
end

mutual
/-- The tree contains an object that is not of scipp, at any depth. -/
inductive Item.HasObject : Item A → Prop
  | obj (o : Nat) : Item.HasObject (.obj o)
  | group (xs : Items A) (h : Items.HasObject xs) : Item.HasObject (.group xs)

/-- One of the items contains an object that is not of scipp. -/
inductive Items.HasObject : Items A → Prop
  | head (k : Nat) (x : Item A) (xs : Items A) (h : Item.HasObject x) : Items.HasObject (.cons k x xs)
  | tail (k : Nat) (x : Item A) (xs : Items A) (h : Items.HasObject xs) : Items.HasObject (.cons k x xs)
end

/-- The array has the dim. -/
def Ops.Depends (ops : Ops A I) (a : A) (d : Dim) : Prop := ∃ n, (d, n) ∈ ops.sizes a

mutual
/-- Every nested group depends on one of the dims `ds` or contains a Python object. -/
inductive Item.Touched (ops : Ops A I) (ds : List Dim) : Item A → Prop
  | obj (o : Nat) : Item.Touched ops ds (.obj o)
  | arr (a : A) : Item.Touched ops ds (.arr a)
  | group (xs : Items A) (h : (∃ d ∈ ds, ∃ a, Items.Has xs a ∧ ops.Depends a d) ∨ Items.HasObject xs) (hs : Items.Touched ops ds xs) :
      Item.Touched ops ds (.group xs)

/-- So does every group nested in the items. -/
inductive Items.Touched (ops : Ops A I) (ds : List Dim) : Items A → Prop
  | nil : Items.Touched ops ds .nil
  | cons (k : Nat) (x : Item A) (xs : Items A) (h : Item.Touched ops ds x) (hs : Items.Touched ops ds xs) : Items.Touched ops ds (.cons k x xs)
end

/-- What is at the end of a path of names; Python objects and arrays are not entered, they serve for all names. -/
def Item.along : Item A → List Nat → Option (Item A)
  | .group xs, k :: p => (xs.get k).bind (fun x => x.along p)
  | x, _ => some x

/-- What is at the end of a path of names. -/
def Item.at_ : Item A → List Nat → Option (Item A)
  | x, [] => some x
  | .group xs, k :: p => (xs.get k).bind (fun x => x.at_ p)
  | _, _ :: _ => none

/-- What slicing does to an array. -/
def SliceRel (ops : Ops A I) (d : Dim) (i : I) (a b : A) : Prop := (ops.Depends a d ∧ ops.slice d i a = .ok b) ∨ (¬ ops.Depends a d ∧ b = a)

/-- What a reduction of everything does to an array: scalars without bins stay as they are. -/
def ReduceAllRel (ops : Ops A I) (a b : A) : Prop :=
  (((∃ d, ops.Depends a d) ∨ ops.binned a = true) ∧ ops.reduceAll a = .ok b) ∨ ((∀ d, ¬ ops.Depends a d) ∧ ops.binned a = false ∧ b = a)

/-- The dims to be reduced that the array has. -/
def common (ops : Ops A I) (ds : List Dim) (a : A) : List Dim := ds.filter (· ∈ (ops.sizes a).map Prod.fst)

/-- What a reduction over `ds` should do to an array: reduce the dims it has. -/
def ReduceRel (ops : Ops A I) (ds : List Dim) (a b : A) : Prop :=
  (common ops ds a ≠ [] ∧ ops.reduce (common ops ds a) a = .ok b) ∨ (common ops ds a = [] ∧ b = a)

/-- What a transformation of dims does to an array. -/
def TransformRel (ops : Ops A I) (ds : List Dim) (a b : A) : Prop :=
  ((∃ d ∈ ds, ops.Depends a d) ∧ ops.transform ds a = .ok b) ∨ ((∀ d ∈ ds, ¬ ops.Depends a d) ∧ b = a)

end Scipp.DG
