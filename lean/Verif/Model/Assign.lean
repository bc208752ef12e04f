import Verif.Model.Sizes
/-
New objects with assigned metadata: `assign_coords`, `assign_masks`, `assign_attrs` (`src/scipp/core/assignments.py`) with `combine_dict_args` (`src/scipp/core/argument_handlers.py`).

Dicts of metadata live in a heap, a list; an object refers to three of them. Values are handles, so equality of values is that of handles (`is_same`). Whether a value fits to the sizes of a dict is any function; that of the code is modelled in `SizedDict`. Data arrays only: data sets without items take their sizes from what is set.
-/
namespace Scipp.Assign
open Scipp

/-- A dict of metadata: sizes, entries, and whether it is read-only (`lib/dataset/sized_dict.cpp` 82-83). -/
structure Meta (S V : Type) where
  sizes : S
  entries : List (Nat × V)
  readonly : Bool
deriving DecidableEq

/-- A data array: references to its dicts (`lib/dataset/data_array.cpp` 24-30; data and name are omitted). -/
structure Obj where
  coords : Nat
  masks : Nat
  attrs : Nat
deriving DecidableEq

/-- Which dict (`src/scipp/core/assignments.py` 16). -/
inductive Which where
  | coords
  | masks
  | attrs
deriving DecidableEq

/-- `getattr(out, name)` (`src/scipp/core/assignments.py` 24). -/
def Obj.ref (o : Obj) : Which → Nat
  | .coords => o.coords
  | .masks => o.masks
  | .attrs => o.attrs

/-- Copy of a dict: entries are shared, the copy is writable (`lib/dataset/sized_dict.cpp` 82-83). -/
def Meta.copy {S V : Type} (m : Meta S V) : Meta S V := { m with readonly := false }

/-- `obj.copy(deep=False)`: new dicts (`lib/python/bind_operators.h` 44, `lib/dataset/data_array.cpp` 24-33). -/
def shallow {S V : Type} (h : List (Meta S V)) (o : Obj) : Option (List (Meta S V) × Obj) :=
  match h[o.coords]?, h[o.masks]?, h[o.attrs]? with
  | some c, some m, some a => some (h ++ [c.copy, m.copy, a.copy], ⟨h.length, h.length + 1, h.length + 2⟩)
  | _, _, _ => none

/-- `insert_or_assign` of entries (`lib/dataset/sized_dict.cpp` 221-250). -/
def insertOrAssign {V : Type} (k : Nat) (v : V) : List (Nat × V) → List (Nat × V)
  | [] => [(k, v)]
  | (j, w) :: l => if j = k then (j, v) :: l else (j, w) :: insertOrAssign k v l

/-- `set` of a dict (`lib/dataset/sized_dict.cpp` 221-250); `fits` is the check of bins and dims. -/
def Meta.set {S V : Type} [DecidableEq V] (fits : S → V → Except Err Unit) (m : Meta S V) (k : Nat) (v : V) : Except Err (Meta S V) :=
  if m.entries.lookup k = some v then .ok m
  else if m.readonly then .error .readonly
  else
    match fits m.sizes v with
    | .error e => .error e
    | .ok () => .ok { m with entries := insertOrAssign k v m.entries }

/-- `combine_dict_args` (`src/scipp/core/argument_handlers.py` 11-23). -/
def combine {V : Type} (pos : Option (List (Nat × V))) (kw : List (Nat × V)) : Except Err (List (Nat × V)) :=
  if (pos.getD []).any (fun p => kw.any (fun q => q.1 == p.1)) then .error .invalidArgument
  else .ok (pos.getD [] ++ kw)

/-- The loop (`src/scipp/core/assignments.py` 23-24): what was set before an error remains in the heap. -/
def setAll {S V : Type} [DecidableEq V] (fits : S → V → Except Err Unit) (r : Nat) : List (Meta S V) → List (Nat × V) → List (Meta S V) × Except Err Unit
  | h, [] => (h, .ok ())
  | h, (k, v) :: l =>
    match h[r]? with
    | none => (h, .error .ub)
    | some m =>
      match m.set fits k v with
      | .error e => (h, .error e)
      | .ok m' => setAll fits r (h.set r m') l

/-- `_assign` (`src/scipp/core/assignments.py` 14-25). -/
def assign {S V : Type} [DecidableEq V] (fits : S → V → Except Err Unit) (h : List (Meta S V)) (o : Obj) (name : Which) (pos : Option (List (Nat × V))) (kw : List (Nat × V)) : List (Meta S V) × Except Err Obj :=
  match shallow h o with
  | none => (h, .error .ub)
  | some (h1, out) =>
    match combine pos kw with
    | .error e => (h1, .error e)
    | .ok items =>
      match setAll fits (out.ref name) h1 items with
      | (h2, .error e) => (h2, .error e)
      | (h2, .ok ()) => (h2, .ok out)

end Scipp.Assign
