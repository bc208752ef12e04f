import Verif.Model.Sizes
/-
Model of `DataGroup`: `src/scipp/core/data_group.py` (sizes, slicing, reductions, transformations along dims, item-wise operations) and
`src/scipp/core/_cpp_wrapper_util.py` (functions called with groups). Variables, data arrays and datasets are values of an arbitrary type with the
operations they provide. Not modelled: items that are `Bins` or `GroupBy` objects, label-based and boolean indexing of groups, `plot`, representation.
-/
namespace Scipp.DG

/-- What variables, data arrays and datasets provide: `sizes`, whether `bins` is not `None`, and the methods called by groups. `reduceAll` and `reduce` stand
for one method (`sum`, `squeeze`, ...) called without and with dims, `slice` for `__getitem__` with a dim and an index, `transform` for `flatten`, `fold`
or `transpose` with dims. -/
structure Ops (A I : Type) where
  sizes : A → List (Dim × Nat)
  binned : A → Bool
  slice : Dim → I → A → Except Err A
  reduceAll : A → Except Err A
  reduce : List Dim → A → Except Err A
  transform : List Dim → A → Except Err A

mutual
/-- An item of a group: a Python object unknown to scipp, an array, or a group (`data_group.py` 98-115). -/
inductive Item (A : Type) where
  | obj (o : Nat)
  | arr (a : A)
  | group (xs : Items A)

/-- The items of a group with their names: `self._items`, a `dict` in order of insertion (113). -/
inductive Items (A : Type) where
  | nil
  | cons (k : Nat) (x : Item A) (xs : Items A)
end

variable {A I : Type}

/-- `all_sizes.setdefault(dim, set()).add(size)` (`data_group.py` 237); the set is a list without duplicates. -/
def addSize (d : Dim) (s : Option Nat) : List (Dim × List (Option Nat)) → List (Dim × List (Option Nat))
  | [] => [(d, [s])]
  | (d', ss) :: rest => if d' = d then (d', if s ∈ ss then ss else ss ++ [s]) :: rest else (d', ss) :: addSize d s rest

/-- `sizes` from the sizes of the items (`data_group.py` 232-238). -/
def combine (entries : List (Dim × Option Nat)) : List (Dim × Option Nat) :=
  (entries.foldl (fun acc e => addSize e.1 e.2 acc) []).map (fun p => (p.1, match p.2 with | [s] => s | _ => none))

mutual
/-- `getattr(x, 'sizes', {})` (`data_group.py` 236). -/
def Item.sizes (ops : Ops A I) : Item A → List (Dim × Option Nat)
  | .obj _ => []
  | .arr a => (ops.sizes a).map (fun p => (p.1, some p.2))
  | .group xs => combine (xs.entries ops)

/-- The sizes of all items, in order (`data_group.py` 235-236). -/
def Items.entries (ops : Ops A I) : Items A → List (Dim × Option Nat)
  | .nil => []
  | .cons _ x xs => x.sizes ops ++ xs.entries ops
end

/-- `_item_dims` (`data_group.py` 60-61), `dims` (217-219). -/
def Item.dims (ops : Ops A I) (x : Item A) : List Dim := (x.sizes ops).map Prod.fst

mutual
/-- Whether the attribute `bins` exists: for groups, evaluating it evaluates `bins` of all items (`data_group.py` 256-259) and fails with
`AttributeError` if one of them has none. -/
def Item.hasBins : Item A → Bool
  | .obj _ => false
  | .arr _ => true
  | .group xs => xs.hasBins

/-- `self.apply(operator.attrgetter('bins'))` succeeds (`data_group.py` 259). -/
def Items.hasBins : Items A → Bool
  | .nil => true
  | .cons _ x xs => x.hasBins && xs.hasBins
end

mutual
/-- `var[dim, index] if dim in _item_dims(var) else var` (`data_group.py` 182-184). -/
def Item.slice (ops : Ops A I) (d : Dim) (i : I) : Item A → Except Err (Item A)
  | .obj o => .ok (.obj o)
  | .arr a => if d ∈ (Item.arr a).dims ops then (ops.slice d i a).map .arr else .ok (.arr a)
  | .group xs => if d ∈ (Item.group xs).dims ops then (xs.slice ops d i).map .group else .ok (.group xs)

/-- `DataGroup.__getitem__` with a dim and an index (`data_group.py` 178-187). -/
def Items.slice (ops : Ops A I) (d : Dim) (i : I) : Items A → Except Err (Items A)
  | .nil => .ok .nil
  | .cons k x xs => do
    let y ← x.slice ops d i
    let ys ← xs.slice ops d i
    .ok (.cons k y ys)
end

mutual
/-- `_reduce_child` without dims (`data_group.py` 296-308). -/
def Item.reduceAll (ops : Ops A I) : Item A → Except Err (Item A)
  | .obj o => .ok (.obj o)
  | .arr a => if (Item.arr a).dims ops = [] ∧ ops.binned a = false then .ok (.arr a) else (ops.reduceAll a).map .arr
  | .group xs => if (Item.group xs).dims ops = [] ∧ xs.hasBins = false then .ok (.group xs) else (xs.reduceAll ops).map .group

/-- `_reduce` without dims (`data_group.py` 291-321). -/
def Items.reduceAll (ops : Ops A I) : Items A → Except Err (Items A)
  | .nil => .ok .nil
  | .cons k x xs => do
    let y ← x.reduceAll ops
    let ys ← xs.reduceAll ops
    .ok (.cons k y ys)
end

/-- `dims_to_reduce` (`data_group.py` 309-312). -/
def toReduce (ops : Ops A I) (ds : List Dim) (x : Item A) : List Dim := ds.filter (· ∈ x.dims ops)

mutual
/-- `_reduce_child` with dims (`data_group.py` 296-319). -/
def Item.reduce (ops : Ops A I) (ds : List Dim) : Item A → Except Err (Item A)
  | .obj o => .ok (.obj o)
  | .arr a =>
    if (Item.arr a).dims ops = [] ∧ ops.binned a = false then .ok (.arr a)
    else if toReduce ops ds (.arr a) = [] then
      if ops.binned a then (ops.reduceAll a).map .arr else .ok (.arr a)
    else (ops.reduce (toReduce ops ds (.arr a)) a).map .arr
  | .group xs =>
    if (Item.group xs).dims ops = [] ∧ xs.hasBins = false then .ok (.group xs)
    else if toReduce ops ds (.group xs) = [] then
      if xs.hasBins then (xs.reduceAll ops).map .group else .ok (.group xs)
    else (xs.reduce ops (toReduce ops ds (.group xs))).map .group

/-- `_reduce` with dims (`data_group.py` 291-321): `sum`, `mean`, ..., `squeeze` (326-545). -/
def Items.reduce (ops : Ops A I) (ds : List Dim) : Items A → Except Err (Items A)
  | .nil => .ok .nil
  | .cons k x xs => do
    let y ← x.reduce ops ds
    let ys ← xs.reduce ops ds
    .ok (.cons k y ys)
end

mutual
/-- Transforming an item that depends on one of the dims (`data_group.py` 276-289). -/
def Item.transform (ops : Ops A I) (ds : List Dim) : Item A → Except Err (Item A)
  | .obj o => .ok (.obj o)
  | .arr a => if toReduce ops ds (.arr a) = [] then .ok (.arr a) else (ops.transform ds a).map .arr
  | .group xs => if toReduce ops ds (.group xs) = [] then .ok (.group xs) else (xs.transform ops ds).map .group

/-- `_transform_dim` with dims (`data_group.py` 270-289): `flatten`, `fold`, `transpose`. -/
def Items.transform (ops : Ops A I) (ds : List Dim) : Items A → Except Err (Items A)
  | .nil => .ok .nil
  | .cons k x xs => do
    let y ← x.transform ops ds
    let ys ← xs.transform ops ds
    .ok (.cons k y ys)
end

/-- A reducing function of the module, such as `scipp.sum(group, dim)` (`reduction.py` 616-649, `_cpp_wrapper_util.py` 14-29): `data_group_nary` calls the
C++ function on every item (`data_group.py` 680-699), which accepts arrays only (`TypeError`, here `invalidArgument`). -/
def Items.functionReduce (ops : Ops A I) (d : Dim) : Items A → Except Err (Items A)
  | .nil => .ok .nil
  | .cons k x xs => do
    let y ← match x with
      | .arr a => (ops.reduce [d] a).map Item.arr
      | _ => .error .invalidArgument
    let ys ← xs.functionReduce ops d
    .ok (.cons k y ys)

/-- The names in a group, in order (`keys`, `data_group.py` 127-128). -/
def Items.keys : Items A → List Nat
  | .nil => []
  | .cons k _ xs => k :: xs.keys

/-- `self._items[name]` (`data_group.py` 163-164). -/
def Items.get : Items A → Nat → Option (Item A)
  | .nil, _ => none
  | .cons k x xs, n => if k = n then some x else xs.get n

mutual
/-- Item-wise operations of two operands (`__add__` etc., `data_group.py` 551-673; `data_group_nary` 680-699). The names are those of the group, or, with
two groups, the intersection of the two views of keys: a Python `set`, whose order is unspecified. Nested groups are handled by the operator of the
items. -/
inductive Binary (f : Item A → Item A → Except Err (Item A)) : Item A → Item A → Item A → Prop
  | both (xs ys rs : Items A) (h : rs.keys.Perm (xs.keys.filter (· ∈ ys.keys))) (hr : BinaryItems f (fun k => xs.get k) (fun k => ys.get k) rs) :
      Binary f (.group xs) (.group ys) (.group rs)
  | left (xs rs : Items A) (y : Item A) (hy : ∀ ys, y ≠ .group ys) (h : rs.keys = xs.keys)
      (hr : BinaryItems f (fun k => xs.get k) (fun _ => some y) rs) : Binary f (.group xs) y (.group rs)
  | right (ys rs : Items A) (x : Item A) (hx : ∀ xs, x ≠ .group xs) (h : rs.keys = ys.keys)
      (hr : BinaryItems f (fun _ => some x) (fun k => ys.get k) rs) : Binary f x (.group ys) (.group rs)
  | leaf (x y r : Item A) (hx : ∀ xs, x ≠ .group xs) (hy : ∀ ys, y ≠ .group ys) (hf : f x y = .ok r) : Binary f x y r

/-- The dict comprehension of `data_group_nary` (`data_group.py` 691-699): the operation on the elements of every name. -/
inductive BinaryItems (f : Item A → Item A → Except Err (Item A)) : (Nat → Option (Item A)) → (Nat → Option (Item A)) → Items A → Prop
  | nil (a b) : BinaryItems f a b .nil
  | cons (a b) (k : Nat) (x y r : Item A) (rs : Items A) (ha : a k = some x) (hb : b k = some y) (h : Binary f x y r) (hs : BinaryItems f a b rs) :
      BinaryItems f a b (.cons k r rs)
end

end Scipp.DG
