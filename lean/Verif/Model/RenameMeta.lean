import Verif.Model.Sizes
/-
Renaming of a data array with its coords and attrs: the part of `rename` (`src/scipp/core/dimensions.py`) after `rename_dims`, which is modelled in `Rename`.

Dicts are lists of names and values. Values were in the dict before, so the check of dims when they are set again succeeds and is omitted. Attributes and coords of events are in the buffer of bins, of which a shallow copy is made.
-/
namespace Scipp.RenameMeta
open Scipp

/-- Metadata of a data array: coords and attrs, and those of events if it is binned (`src/scipp/core/dimensions.py` 116-130). -/
structure Metadata (V : Type) where
  coords : List (Nat × V)
  attrs : List (Nat × V)
  events : Option (List (Nat × V) × List (Nat × V))
deriving DecidableEq

/-- Names in a dict, for `in` (`src/scipp/core/dimensions.py` 119, 125, 129). -/
def names {V : Type} (l : List (Nat × V)) : List Nat := l.map Prod.fst

/-- Setting an item, `insert_or_assign` (`lib/dataset/sized_dict.cpp` 221-250). -/
def setItem {V : Type} (k : Nat) (v : V) (l : List (Nat × V)) : List (Nat × V) :=
  if k ∈ names l then l.map (fun p => if p.1 = k then (k, v) else p) else l ++ [(k, v)]

/-- `if old in meta: meta[new] = meta.pop(old)` (`src/scipp/core/dimensions.py` 124-126, 128-130). -/
def move {V : Type} (old new : Nat) (l : List (Nat × V)) : List (Nat × V) :=
  match l.lookup old with
  | none => l
  | some v => setItem new v (l.filter (fun p => p.1 ≠ old))

/-- One step of the loop (`src/scipp/core/dimensions.py` 118-130). -/
def step {V : Type} (m : Metadata V) (old new : Nat) : Except Err (Metadata V) :=
  if new ∈ names m.coords ∨ new ∈ names m.attrs then .error .invalidArgument
  else .ok ⟨move old new m.coords, move old new m.attrs, m.events.map (fun e => (move old new e.1, move old new e.2))⟩

/-- The loop (`src/scipp/core/dimensions.py` 118-131). -/
def rename {V : Type} : Metadata V → List (Nat × Nat) → Except Err (Metadata V)
  | m, [] => .ok m
  | m, (old, new) :: l =>
    match step m old new with
    | .error e => .error e
    | .ok m' => rename m' l

end Scipp.RenameMeta
