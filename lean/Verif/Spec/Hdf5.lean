import Verif.Model.Hdf5

/-!
# Vocabulary for C115: what is found in a file
-/

namespace Scipp.Hdf5.Spec

open Scipp.Hdf5

variable {V : Type}

/-- Types that can be saved. -/
def supported (v : Var V) : Bool := v.kind != .unsupported

/-- A variable as found after loading: binned variables are aligned. -/
def loaded (v : Var V) : Var V := if v.kind = .bins then { v with aligned := true } else v

/-- The variables of a mapping as found after loading: those of types that cannot be saved are left out. -/
def loadedVars (l : List (Text × Var V)) : List (Text × Var V) := (l.filter fun x => supported x.2).map fun x => (x.1, loaded x.2)

/-- A data array as found after loading. -/
def loadedArr (a : Arr V) : Arr V := ⟨loaded a.data, loadedVars a.coords, loadedVars a.masks, loadedVars a.attrs, a.name⟩

/-- An item of a data group: data arrays have the name of the item. -/
def named (name : Text) : Thing V → Thing V
  | .array a => .array { a with name := name }
  | x => x

mutual
/-- Objects as found after loading; `none` if there is nothing to be found. -/
def loadedThing : Thing V → Option (Thing V)
  | .var v => if supported v then some (.var (loaded v)) else none
  | .array a => if supported a.data then some (.array (loadedArr a)) else none
  | .dataset coords items => some (.dataset (loadedVars coords) (items.map fun x => (x.1, loadedArr x.2)))
  | .group items => some (.group (loadedItems items))
  | .other => none
/-- The items of a data group as found after loading. -/
def loadedItems : Items V → Items V
  | .nil => .nil
  | .cons name x rest =>
    match loadedThing x with
    | none => loadedItems rest
    | some y => .cons name (named name y) (loadedItems rest)
end

/-- Strings have at most one dimension, or there are none. -/
def FineVar (v : Var V) : Prop := v.kind = .string → v.shape.length ≤ 1 ∨ 0 ∈ v.shape

/-- Mappings are of at most a thousand elements. -/
def FineVars (l : List (Text × Var V)) : Prop := l.length ≤ 1000 ∧ ∀ x ∈ l, FineVar x.2

/-- The parts of a data array. -/
def FineArr (a : Arr V) : Prop := FineVar a.data ∧ FineVars a.coords ∧ FineVars a.masks ∧ FineVars a.attrs

/-- An item of a dataset with given coordinates: data can be saved, the name is not `coords`, and its coordinates are coordinates of the dataset. -/
def FineEntry (coords : List (Text × Var V)) (x : Text × Arr V) : Prop :=
  FineArr x.2 ∧ supported x.2.data = true ∧ x.2.name = x.1 ∧ x.1 ≠ coordsText ∧ ∀ c ∈ x.2.coords, c ∈ coords

/-- Number of items. -/
def count : Items V → Nat
  | .nil => 0
  | .cons _ _ rest => count rest + 1

mutual
/-- Conditions for an object, at all levels. -/
def Fine : Thing V → Prop
  | .var v => FineVar v
  | .array a => FineArr a
  | .dataset coords items => FineVars coords ∧ (coords.map (·.1)).Nodup ∧ items.length ≤ 1000 ∧ ∀ x ∈ items, FineEntry coords x
  | .group items => count items ≤ 1000 ∧ FineItems items
  | .other => True
/-- Conditions for the items of a data group. -/
def FineItems : Items V → Prop
  | .nil => True
  | .cons _ x rest => Fine x ∧ FineItems rest
end

/-- A variable that is not changed: its type can be saved, and it is aligned if it is binned. -/
def Kept (v : Var V) : Prop := v.kind ≠ .unsupported ∧ (v.kind = .bins → v.aligned = true)

/-- A data array all parts of which are kept. -/
def KeptArr (a : Arr V) : Prop :=
  Kept a.data ∧ (∀ x ∈ a.coords, Kept x.2) ∧ (∀ x ∈ a.masks, Kept x.2) ∧ ∀ x ∈ a.attrs, Kept x.2

/-- The name of a data array in a data group is the name of the item. -/
def NameFits (name : Text) : Thing V → Prop
  | .array a => a.name = name
  | _ => True

mutual
/-- Objects all parts of which are kept. -/
def KeptThing : Thing V → Prop
  | .var v => Kept v
  | .array a => KeptArr a
  | .dataset coords items => (∀ x ∈ coords, Kept x.2) ∧ ∀ x ∈ items, KeptArr x.2
  | .group items => KeptItems items
  | .other => False
/-- Items all parts of which are kept, including the names of data arrays. -/
def KeptItems : Items V → Prop
  | .nil => True
  | .cons name x rest => KeptThing x ∧ NameFits name x ∧ KeptItems rest
end

end Scipp.Hdf5.Spec
