import Verif.Model.Sizes
import Mathlib.Data.Nat.Digits.Defs
/-
Format of variables as text (`src/scipp/format/_parse.py`, `src/scipp/format/formatter.py`): parsing of the format specification and selection of the elements shown.

Text is a list of characters. The regular expression is modelled by the functions below: each part is matched as far as possible, which gives the same as backtracking because the parts begin with different characters. Digits are those of ASCII.
-/
namespace Scipp.FormatSpec
open Scipp

/-- `Selection` (`src/scipp/format/_parse.py` 22-25). -/
inductive Selection where
  | edges
  | begin
  | end_
deriving DecidableEq

/-- `FormatSpec`: what was given, `none` for what was not (`src/scipp/format/_parse.py` 37-64); `compact` is the type `c`. -/
structure Spec where
  compact : Bool
  selection : Option Selection
  length : Option Nat
  nested : Option (List Char)
deriving DecidableEq

/-- `Selection(char)` for the characters of the pattern (`src/scipp/format/_parse.py` 22-25, 75). -/
def selectionOf (c : Char) : Option Selection :=
  if c = '^' then some .edges else if c = '<' then some .begin else if c = '>' then some .end_ else none

/-- The first group (`src/scipp/format/_parse.py` 75): selection and the rest. -/
def takeSelection : List Char → Option Selection × List Char
  | c :: rest => match selectionOf c with
    | some s => (some s, rest)
    | none => (none, c :: rest)
  | [] => (none, [])

/-- The number given by digits, `int(length)` (`src/scipp/format/_parse.py` 60). -/
def toNat (ds : List Char) : Nat := ds.foldl (fun n c => 10 * n + (c.toNat - '0'.toNat)) 0

/-- The second group (`src/scipp/format/_parse.py` 76): length and the rest. -/
def takeLength : List Char → Option Nat × List Char
  | '#' :: rest =>
    let ds := rest.takeWhile Char.isDigit
    if ds = [] then (none, '#' :: rest) else (some (toNat ds), rest.dropWhile Char.isDigit)
  | s => (none, s)

/-- The third group (`src/scipp/format/_parse.py` 77): type and the rest. -/
def takeType : List Char → Bool × List Char
  | 'c' :: rest => (true, rest)
  | s => (false, s)

/-- The end of the text, `$` (`src/scipp/format/_parse.py` 78): a newline may follow. -/
def atEnd (s : List Char) : Bool := s = [] || s = ['\n']

/-- The fourth group and the end (`src/scipp/format/_parse.py` 78): `.` matches anything but a newline. The result is `none` if there is no match. -/
def takeNested : List Char → Option (Option (List Char))
  | ':' :: rest => if atEnd (rest.dropWhile (· != '\n')) then some (some (rest.takeWhile (· != '\n'))) else none
  | s => if atEnd s then some none else none

/-- `parse` (`src/scipp/format/_parse.py` 82-92). -/
def parse (s : List Char) : Except Err Spec :=
  let (sel, s1) := takeSelection s
  let (len, s2) := takeLength s1
  let (typ, s3) := takeType s2
  match takeNested s3 with
  | none => .error .invalidArgument
  | some nested => .ok ⟨typ, sel, len, nested⟩

/-- `str(selection)` (`src/scipp/format/_parse.py` 27-34). -/
def selectionChar : Selection → Char
  | .edges => '^'
  | .begin => '<'
  | .end_ => '>'

/-- Decimal digits of a number (`src/scipp/format/_parse.py` 68, f-string of an `int`). -/
def digits (n : Nat) : List Char := Nat.toDigits 10 n

/-- `FormatSpec.__str__` (`src/scipp/format/_parse.py` 66-71). -/
def toText (s : Spec) : List Char :=
  (match s.selection with | some c => [selectionChar c] | none => []) ++
  (match s.length with | some n => '#' :: digits n | none => []) ++
  (if s.compact then ['c'] else []) ++
  (match s.nested with | some t => ':' :: t | none => [])

/-- A slice of Python `data[a:b]` with `none` for what is missing; negative numbers count from the end (`src/scipp/format/formatter.py` 102-109, 126, 129). -/
def pySlice {V : Type} (data : List V) (a b : Option Int) : List V :=
  let n : Int := data.length
  let norm (i : Int) : Int := if i < 0 then max 0 (i + n) else min i n
  let lo := norm (a.getD 0)
  let hi := norm (b.getD n)
  (data.drop lo.toNat).take (hi - lo).toNat

/-- `_element_ranges` (`src/scipp/format/formatter.py` 102-109); `-length // 2` rounds down. -/
def elementRanges (sel : Selection) (length : Nat) : (Option Int × Option Int) × (Option Int × Option Int) :=
  match sel with
  | .edges => ((none, some ((length : Int) / 2)), (some (-(length : Int) / 2), none))
  | .begin => ((none, some (length : Int)), (some 0, some 0))
  | .end_ => ((some 0, some 0), (some (-(length : Int)), none))

/-- An entry of the text: an element or `...` (`src/scipp/format/formatter.py` 118-129). -/
inductive Item (V : Type) where
  | elem (v : V)
  | dots
deriving DecidableEq

/-- The elements in one of the ranges, which is skipped if it is `slice(0, 0)` (`src/scipp/format/formatter.py` 125-129). -/
def part {V : Type} (data : List V) (r : Option Int × Option Int) : List (Item V) :=
  if r = (some 0, some 0) then [] else (pySlice data r.1 r.2).map .elem

/-- `_format_array_flat_regular` (`src/scipp/format/formatter.py` 112-130), without the text of elements. -/
def select {V : Type} (data : List V) (sel : Selection) (length : Nat) : List (Item V) :=
  if data.length ≤ length then data.map .elem
  else if length = 0 then [.dots]
  else part data (elementRanges sel length).1 ++ [.dots] ++ part data (elementRanges sel length).2

end Scipp.FormatSpec
