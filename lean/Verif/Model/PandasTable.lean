import Verif.Model.Sizes
/-
Conversion of tables of pandas (`src/scipp/compat/pandas_compat.py`).

Text is a list of characters. Values are of any type `V`; what units there are and how they are parsed is any function. Not modelled: conversion of dtypes, series on their own, names of columns which are no text or occur twice (an error).
-/
namespace Scipp.PandasTable
open Scipp

/-- The unit given to `array` (`pandas_compat.py` 50): `default_unit`, `None` or a unit. -/
inductive ColUnit (U : Type) where
  | default
  | none
  | unit (u : U)
deriving DecidableEq

/-- `str.rstrip` (called in `pandas_compat.py` 195). -/
def rstrip (s : List Char) : List Char := (s.reverse.dropWhile Char.isWhitespace).reverse

/-- The text before the final `]`, where a newline may follow (the part `([^[]*)])?$` of the regular expression in `pandas_compat.py` 188). -/
def beforeBracket (s : List Char) : Option (List Char) :=
  match s.reverse with
  | ']' :: r => some r.reverse
  | '\n' :: ']' :: r => some r.reverse
  | _ => none

/-- The regular expression (`pandas_compat.py` 188): the name, and what is between brackets if there are any. -/
def matchHeader (head : List Char) : Option (List Char × Option (List Char)) :=
  match head.dropWhile (fun c => c != '[') with
  | [] => some (head, none)
  | _ :: rest =>
    if rest.contains '[' then none
    else
      match beforeBracket rest with
      | none => none
      | some u => some (head.takeWhile (fun c => c != '['), some u)

/-- `parse_bracket_header` (`pandas_compat.py` 153-202); `parse` is `Unit`. -/
def parseBracket {U : Type} (parse : List Char → Option U) (head : List Char) : List Char × ColUnit U :=
  match matchHeader head with
  | none => (head, .none)
  | some (name, none) => (name, .none)
  | some (name, some u) =>
    if u.all Char.isWhitespace then (rstrip name, .default)
    else
      match parse u with
      | some unit => (rstrip name, .unit unit)
      | none => (head, .none)

/-- The index of the rows (`pandas_compat.py` 33-41): the name, its values, whether they are just numbered. -/
structure Index (V : Type) where
  name : List Char
  values : V
  trivial : Bool

/-- A column of the result (`pandas_compat.py` 49-53): name, unit and values. -/
structure Column (U V : Type) where
  name : List Char
  unit : ColUnit U
  values : V
deriving DecidableEq

/-- A dict of columns by name (`{da.name: da for da in columns}`, `pandas_compat.py` 73): a later one replaces an earlier one of the same name. -/
def dictOf {U V : Type} (cols : List (Column U V)) : List (Column U V) :=
  cols.foldl (fun d c => if (d.map (·.name)).contains c.name then d.map (fun x => if x.name = c.name then c else x) else d ++ [c]) []

/-- The dataset (`pandas_compat.py` 84): data and coords by name; the index as coord if there is one. -/
structure Table (U V : Type) where
  data : List (Column U V)
  coords : List (Column U V)
  index : Option (List Char × V)

/-- `{name: coords.pop(name) for name in data_columns}` (`pandas_compat.py` 81): the columns taken and those left. -/
def popAll {U V : Type} : List (List Char) → List (Column U V) → Except Err (List (Column U V) × List (Column U V))
  | [], cs => .ok ([], cs)
  | n :: ns, cs =>
    match cs.find? (fun c => c.name == n) with
    | none => .error .notFound
    | some c =>
      match popAll ns (cs.filter (fun x => x.name != n)) with
      | .error e => .error e
      | .ok (d, rest) => .ok (c :: d, rest)

/-- The index is a coord of every column taken as data (`pandas_compat.py` 37-41), thus of the dataset if there is any data; columns taken as coords are without it (82). -/
def indexOf {U V : Type} (incl : Bool) (i : Index V) (data : List (Column U V)) : Option (List Char × V) :=
  if (incl || !i.trivial) && !data.isEmpty then some (i.name, i.values) else none

/-- `from_pandas_dataframe` (`pandas_compat.py` 56-84); `header` parses the header of a column. A coord with the name of the index is an error unless it is the same (`Dataset`). -/
def fromFrame {U V : Type} [DecidableEq V] (header : List Char → List Char × ColUnit U) (incl : Bool) (i : Index V) (cols : List (List Char × V)) (dataCols : Option (List (List Char))) :
    Except Err (Table U V) :=
  let all := dictOf (cols.map (fun c => ⟨(header c.1).1, (header c.1).2, c.2⟩))
  match dataCols with
  | none => .ok ⟨all, [], indexOf incl i all⟩
  | some names =>
    match popAll names all with
    | .error e => .error e
    | .ok (data, coords) =>
      if (indexOf incl i data).isSome && coords.any (fun c => decide (c.name = i.name) && !decide (c.values = i.values)) then .error .dataset
      else .ok ⟨data, coords, indexOf incl i data⟩

end Scipp.PandasTable
