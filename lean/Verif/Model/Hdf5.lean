import Verif.Model.Sizes
import Mathlib.Data.List.Lex
import Mathlib.Data.List.Sort
import Mathlib.Data.Nat.Digits.Defs

/-!
# Saving to and loading from HDF5 files

`src/scipp/io/hdf5.py`. A file is a tree of groups with attributes. Text is a list of code points. h5py visits the members of a group in the order of their names.
-/

namespace Scipp.Hdf5

variable {V : Type}

/-- Text as code points (`hdf5.py` 70, `name: str`). -/
abbrev Text := List Nat

/-- Types of elements (`hdf5.py` 36-61, 214-242): `plain` are those handled by `_NumpyDataIO` and `_ScippDataIO`, `unsupported` are those without a handler. -/
inductive Kind where
  | plain | string | bins | unsupported
  deriving DecidableEq

/-- A variable (`hdf5.py` 269-322): the parts that are written and read as they are (dims, unit, values, variances, contents of bins; see C104 for the unit) are of any type. -/
structure Var (V : Type) where
  kind : Kind
  shape : List Nat
  aligned : Bool
  rest : V
  deriving DecidableEq

/-- A data array (`hdf5.py` 359-387). -/
structure Arr (V : Type) where
  data : Var V
  coords : List (Text × Var V)
  masks : List (Text × Var V)
  attrs : List (Text × Var V)
  name : Text
  deriving DecidableEq

mutual
/-- Objects to be saved (`hdf5.py` 459-483). `dataset` gives the coordinates and the items (390-416). `other` is anything without a handler; numbers, text, and NumPy arrays (433-456) are
left out. -/
inductive Thing (V : Type) where
  | var (v : Var V)
  | array (a : Arr V)
  | dataset (coords : List (Text × Var V)) (items : List (Text × Arr V))
  | group (items : Items V)
  | other
/-- The items of a data group (`hdf5.py` 419-430). -/
inductive Items (V : Type) where
  | nil
  | cons (name : Text) (x : Thing V) (rest : Items V)
end

/-- The members of a group in a file: name of the member, attribute `name`, contents (`hdf5.py` 325-356). -/
abbrev Members (β : Type) := List (Text × Text × β)

/-- The group of a data array in a file, apart from the attribute `name` (`hdf5.py` 361-375). -/
structure FileArr (V : Type) where
  data : Var V
  coords : Members (Var V)
  masks : Members (Var V)
  attrs : Members (Var V)

mutual
/-- A group in a file (`hdf5.py` 283-299, 359-430). For data arrays the attribute `name` (365) is given. An item of a dataset without contents is one whose data was not written. -/
inductive Node (V : Type) where
  | var (v : Var V)
  | array (name : Text) (a : FileArr V)
  | dataset (coords : Members (Var V)) (entries : Members (Option (FileArr V)))
  | group (entries : Nodes V)
/-- The members of the group of a data group: name, attribute `name`, contents (`hdf5.py` 419-425). -/
inductive Nodes (V : Type) where
  | nil
  | cons (elem name : Text) (x : Node V) (rest : Nodes V)
end

/-- Decimal digits as text (`hdf5.py` 77, 80). -/
def decimal (n : Nat) : Text := (Nat.digits 10 n).reverse.map (48 + ·)

/-- The format `03d` (`hdf5.py` 80). -/
def pad3 (n : Nat) : Text := List.replicate (3 - (decimal n).length) 48 ++ decimal n

/-- A character in the name of a member (`hdf5.py` 74-79): periods, slashes, and characters outside ASCII are replaced by `&#...;`. -/
def escape (c : Nat) : Text := if c = 46 ∨ c = 47 ∨ 128 ≤ c then [38, 35] ++ decimal c ++ [59] else [c]

/-- `_collection_element_name` (`hdf5.py` 70-80): `elem_`, index, underscore, name. -/
def elemName (name : Text) (i : Nat) : Text := [101, 108, 101, 109, 95] ++ pad3 i ++ [95] ++ name.flatMap escape

/-- The number of elements (`hdf5.py` 182, `len(data.values)`). -/
def volume (shape : List Nat) : Nat := shape.foldl (· * ·) 1

/-- `_VariableIO.write` (`hdf5.py` 283-299); `none` if the type is not supported. For strings (172-184) element `i` of the flat sequence of values is assigned to the row `i` of the dataset,
which fails if there is no such row. -/
def writeVar (v : Var V) : Except Err (Option (Var V)) :=
  match v.kind with
  | .unsupported => .ok none
  | .string =>
    match v.shape with
    | [] => .ok (some v)
    | n :: _ => if n < volume v.shape then .error .outOfRange else .ok (some v)
  | _ => .ok (some v)

/-- `_VariableIO.read` (`hdf5.py` 302-322). The flag is not passed on for bins (313-318). For strings (187-193) the row `i` is assigned to an element, which fails if rows are arrays. -/
def readVar (v : Var V) : Except Err (Var V) :=
  match v.kind with
  | .bins => .ok { v with aligned := true }
  | .string => if 2 ≤ v.shape.length ∧ 0 < volume v.shape then .error .dtype else .ok v
  | .unsupported => .error .runtime
  | .plain => .ok v

/-- A variable of a mapping, or a link if there is one (`hdf5.py` 334-339). -/
def writeLinked (override : Members (Var V)) (name : Text) (v : Var V) : Except Err (Option (Var V)) :=
  match override.find? (fun m => m.2.1 == name) with
  | some m => .ok (some m.2.2)
  | none => writeVar v

/-- `_write_mapping` (`hdf5.py` 325-343) for variables, from index `i`; `override` are the members to which links are made. Variables of types that are not supported are removed again. -/
def writeVars (override : Members (Var V)) : List (Text × Var V) → Nat → Except Err (Members (Var V))
  | [], _ => .ok []
  | (name, v) :: l, i =>
    match writeLinked override name v with
    | .error e => .error e
    | .ok w =>
      match writeVars override l (i + 1) with
      | .error e => .error e
      | .ok ms =>
        match w with
        | none => .ok ms
        | some w => .ok ((elemName name i, name, w) :: ms)

/-- The order in which members are visited, `group.values()` (`hdf5.py` 355; the default of h5py is the order of names). -/
def visit {β : Type} (ms : Members β) : List (Text × β) := (ms.insertionSort fun a b => a.1 ≤ b.1).map (·.2)

/-- Reading of the contents of members, `_HDF5IO.read(g)` (`hdf5.py` 354), in any order. -/
def readAll {β γ : Type} (f : Text → β → Except Err γ) : Members β → Except Err (Members γ)
  | [] => .ok []
  | (e, n, x) :: ms =>
    match f n x with
    | .error e => .error e
    | .ok y =>
      match readAll f ms with
      | .error e => .error e
      | .ok ys => .ok ((e, n, y) :: ys)

/-- `_read_mapping` (`hdf5.py` 346-356), without override. -/
def readMapping {β γ : Type} (f : Text → β → Except Err γ) (ms : Members β) : Except Err (List (Text × γ)) :=
  match readAll f ms with
  | .error e => .error e
  | .ok l => .ok (visit l)

/-- `_read_mapping` (`hdf5.py` 346-356) for variables. -/
def readVars (ms : Members (Var V)) : Except Err (List (Text × Var V)) := readMapping (fun _ => readVar) ms

/-- `_DataArrayIO.write` (`hdf5.py` 361-375); `none` if the data is not written. -/
def writeArr (override : Members (Var V)) (a : Arr V) : Except Err (Option (FileArr V)) :=
  match writeVar a.data with
  | .error e => .error e
  | .ok none => .ok none
  | .ok (some data) =>
    match writeVars override a.coords 0 with
    | .error e => .error e
    | .ok coords =>
      match writeVars [] a.masks 0 with
      | .error e => .error e
      | .ok masks =>
        match writeVars [] a.attrs 0 with
        | .error e => .error e
        | .ok attrs => .ok (some ⟨data, coords, masks, attrs⟩)

/-- `_DataArrayIO.read` (`hdf5.py` 378-387). -/
def readArr (name : Text) (f : FileArr V) : Except Err (Arr V) :=
  match readVar f.data with
  | .error e => .error e
  | .ok data =>
    match readVars f.coords with
    | .error e => .error e
    | .ok coords =>
      match readVars f.masks with
      | .error e => .error e
      | .ok masks =>
        match readVars f.attrs with
        | .error e => .error e
        | .ok attrs => .ok ⟨data, coords, masks, attrs, name⟩

/-- The loop over the items in `_DatasetIO.write` (`hdf5.py` 401-406), from index `i`. The attribute `name` is the name of the item. Items that are not written are not removed. -/
def writeEntries (coords : Members (Var V)) : List (Text × Arr V) → Nat → Except Err (Members (Option (FileArr V)))
  | [], _ => .ok []
  | (name, a) :: l, i =>
    match writeArr coords a with
    | .error e => .error e
    | .ok w =>
      match writeEntries coords l (i + 1) with
      | .error e => .error e
      | .ok ms => .ok ((elemName name i, a.name, w) :: ms)

/-- The text `coords` (`hdf5.py` 415). -/
def coordsText : Text := [99, 111, 111, 114, 100, 115]

/-- Reading of an item of a dataset (`hdf5.py` 349-356 with the override of 415, `python/dataset.cpp` 145-150): an item with the name `coords` is replaced by the dict of coordinates, which is
not accepted. An item without contents cannot be read (203-207). -/
def readEntry (name : Text) : Option (FileArr V) → Except Err (Arr V)
  | none => if name = coordsText then .error .dtype else .error .runtime
  | some f => if name = coordsText then .error .dtype else readArr name f

/-- `_DatasetIO.read` (`hdf5.py` 410-416). The coordinates of the items are those of the file; that the constructor accepts them is not modelled (see C53). -/
def readDataset (coords : Members (Var V)) (entries : Members (Option (FileArr V))) :
    Except Err (List (Text × Var V) × List (Text × Arr V)) :=
  match readVars coords with
  | .error e => .error e
  | .ok cs =>
    match readMapping readEntry entries with
    | .error e => .error e
    | .ok items => .ok (cs, items)

/-- `g.attrs['name'] = str(name)` (`hdf5.py` 343): the attribute is also the name of a data array. -/
def setName (name : Text) : Node V → Node V
  | .array _ a => .array name a
  | x => x

mutual
/-- `_HDF5IO.write` (`hdf5.py` 486-501); `none` if nothing is written. -/
def write : Thing V → Except Err (Option (Node V))
  | .var v =>
    match writeVar v with
    | .error e => .error e
    | .ok none => .ok none
    | .ok (some w) => .ok (some (.var w))
  | .array a =>
    match writeArr [] a with
    | .error e => .error e
    | .ok none => .ok none
    | .ok (some f) => .ok (some (.array a.name f))
  | .dataset coords items =>
    match writeVars [] coords 0 with
    | .error e => .error e
    | .ok cs =>
      match writeEntries cs items 0 with
      | .error e => .error e
      | .ok es => .ok (some (.dataset cs es))
  | .group items =>
    match writeItems items 0 with
    | .error e => .error e
    | .ok ns => .ok (some (.group ns))
  | .other => .ok none
/-- `_write_mapping` (`hdf5.py` 325-343) for the items of a data group (421-425), from index `i`. -/
def writeItems : Items V → Nat → Except Err (Nodes V)
  | .nil, _ => .ok .nil
  | .cons name x rest, i =>
    match write x with
    | .error e => .error e
    | .ok w =>
      match writeItems rest (i + 1) with
      | .error e => .error e
      | .ok ns =>
        match w with
        | none => .ok ns
        | some n => .ok (.cons (elemName name i) name (setName name n) ns)
end

/-- Items from a list (`hdf5.py` 430, the dict given to `DataGroup`). -/
def Items.ofList : List (Text × Thing V) → Items V
  | [] => .nil
  | (n, x) :: l => .cons n x (ofList l)

mutual
/-- `_HDF5IO.read` (`hdf5.py` 504-505). -/
def read : Node V → Except Err (Thing V)
  | .var v =>
    match readVar v with
    | .error e => .error e
    | .ok v => .ok (.var v)
  | .array name f =>
    match readArr name f with
    | .error e => .error e
    | .ok a => .ok (.array a)
  | .dataset coords entries =>
    match readDataset coords entries with
    | .error e => .error e
    | .ok d => .ok (.dataset d.1 d.2)
  | .group ns =>
    match readNodes ns with
    | .error e => .error e
    | .ok l => .ok (.group (Items.ofList (visit l)))
/-- Reading of the members of the group of a data group (`hdf5.py` 346-356, 428-430). -/
def readNodes : Nodes V → Except Err (Members (Thing V))
  | .nil => .ok []
  | .cons e n x rest =>
    match read x with
    | .error e => .error e
    | .ok y =>
      match readNodes rest with
      | .error e => .error e
      | .ok ys => .ok ((e, n, y) :: ys)
end

/-- `save_hdf5` followed by `load_hdf5` (`hdf5.py` 508-533). A file to which nothing was written cannot be read (505). -/
def saveAndLoad (x : Thing V) : Except Err (Thing V) :=
  match write x with
  | .error e => .error e
  | .ok none => .error .notFound
  | .ok (some n) => read n

end Scipp.Hdf5
