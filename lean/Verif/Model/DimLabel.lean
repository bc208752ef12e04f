import Verif.Model.Sizes

/-!
# Labels of dims

Models `lib/units/dim.cpp`: the tables of built-in and user-defined labels, the constructor of
`Dim` from a label, and `Dim::name`. The constructor consists of a section under a shared lock
and a section under an exclusive lock of the same mutex; between the two the lock is released
(dim.cpp 57). Each section is one atomic step here, so that executions by several threads are
all interleavings of these steps.
-/

namespace Scipp.DimLabel

/-- The enumerators and labels of `builtin_ids()`, lib/units/dim.cpp 15-37, with the ids of
`Dim::Id`, lib/units/include/scipp/units/dim.h 16-39. -/
def builtinIds : List (String × Nat) :=
  [("<invalid>", 0), ("<none>", 1), ("<internal_structure_component>", 2),
   ("<internal_structure_row>", 3), ("<internal_structure_column>", 4), ("<internal_histogram>", 5),
   ("<internal_sort>", 6), ("<internal_accumulate>", 7), ("energy", 11), ("event", 12), ("group", 13),
   ("position", 14), ("row", 15), ("temperature", 16), ("time", 17), ("wavelength", 18), ("x", 19),
   ("y", 20), ("z", 21)]

/-- `find` of the `std::unordered_map` from labels to ids used for both tables,
lib/units/dim.cpp 15 and 40. -/
def find (ids : List (String × Nat)) (label : String) : Option Nat :=
  match ids with
  | [] => none
  | (l, i) :: r => if l = label then some i else find r label

/-- `ids[label] = id`, lib/units/dim.cpp 64: replaces the id of a label that is present, inserts
otherwise. -/
def assign (ids : List (String × Nat)) (label : String) (id : Nat) : List (String × Nat) :=
  match ids with
  | [] => [(label, id)]
  | (l, i) :: r => if l = label then (l, id) :: r else (l, i) :: assign r label id

/-- `std::numeric_limits<std::underlying_type<Id>::type>::max()` for the `uint16_t` of
lib/units/include/scipp/units/dim.h 16. -/
def maxId : Nat := 65535

/-- The first section of `Dim::Dim(const std::string &)`, lib/units/dim.cpp 48-56: the built-in
table (never modified, no lock) and, under the shared lock, the table of custom labels. -/
def readSection (custom : List (String × Nat)) (label : String) : Option Nat :=
  match find builtinIds label with
  | some i => some i
  | none => find custom label

/-- The second section of `Dim::Dim(const std::string &)`, lib/units/dim.cpp 58-64, under the
exclusive lock: the id is computed from the number of labels, the label is not looked up again. -/
def writeSection (custom : List (String × Nat)) (label : String) : Except Err (Nat × List (String × Nat)) :=
  let id := custom.length + 1000
  if id > maxId then .error .runtime
  else .ok (id, assign custom label id)

/-- `Dim::name`, lib/units/dim.cpp 67-77. The order of iteration over an unordered map is
unspecified; here it is the order of insertion. -/
def name (custom : List (String × Nat)) (id : Nat) : String :=
  let builtin := if id < 1000 then builtinIds.find? (fun item => item.2 = id) else none
  match builtin with
  | some item => item.1
  | none =>
    match custom.find? (fun item => item.2 = id) with
    | some item => item.1
    | none => "unreachable"

/-- A thread constructing dims from labels one after the other: the labels still to do, the label
for which it is between the two sections of lib/units/dim.cpp 48-64 if any, and what it got
(`none`: the exception of lines 60-62). -/
structure Thread where
  /-- labels to be constructed -/
  todo : List String
  /-- label not found in the first section, waiting for the exclusive lock -/
  pending : Option String
  /-- constructed dims with their labels -/
  done : List (String × Option Nat)
deriving DecidableEq

/-- The table of custom labels, lib/units/dim.cpp 39-42, and the threads. -/
structure State where
  /-- custom labels with their ids -/
  custom : List (String × Nat)
  /-- all threads -/
  threads : List Thread
deriving DecidableEq

/-- Thread `t` executes its next section of the constructor, lib/units/dim.cpp 48-64. -/
def stepThread (custom : List (String × Nat)) (t : Thread) : List (String × Nat) × Thread :=
  match t.pending with
  | some label =>
    match writeSection custom label with
    | .ok (id, custom') => (custom', { t with pending := none, done := t.done ++ [(label, some id)] })
    | .error _ => (custom, { t with pending := none, done := t.done ++ [(label, none)] })
  | none =>
    match t.todo with
    | [] => (custom, t)
    | label :: rest =>
      match readSection custom label with
      | some id => (custom, { t with todo := rest, done := t.done ++ [(label, some id)] })
      | none => (custom, { t with todo := rest, pending := some label })

/-- One step of thread number `i`; the mutex of lib/units/dim.cpp 44 makes sections atomic. -/
def step (s : State) (i : Nat) : State :=
  match s.threads[i]? with
  | none => s
  | some t => ⟨(stepThread s.custom t).1, s.threads.set i (stepThread s.custom t).2⟩

/-- An execution: the threads whose turn it is, in order. Any interleaving of the sections of
lib/units/dim.cpp 48-64 is such a list. -/
def run (s : State) : List Nat → State
  | [] => s
  | i :: r => run (step s i) r

/-- The state at the start of the program, lib/units/dim.cpp 39-42: no custom labels. -/
def start (programs : List (List String)) : State :=
  ⟨[], programs.map fun p => ⟨p, none, []⟩⟩

end Scipp.DimLabel
