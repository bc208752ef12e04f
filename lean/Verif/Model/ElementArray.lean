import Verif.Model.Sizes
/-
The array holding the elements of a variable (`lib/core/include/scipp/core/element_array.h`).
-/
namespace Scipp.ElementArray

/-- `element_array<T>` (`element_array.h` 48-162): `m_size` (159) and the array at `m_data` (160), `none` for a null pointer. An element is `none` if it has not been
initialised (`new T[size]` for a fundamental type, 26). -/
structure Arr (α : Type) where
  size : Int
  data : Option (List (Option α))
  deriving DecidableEq, Repr

variable {α : Type}

/-- The default constructor (`element_array.h` 52, 159-160), and what `reset` leaves (126-129). -/
def unset : Arr α := ⟨-1, none⟩

/-- `make_unique_for_overwrite_array` (`element_array.h` 17-29). A `scipp::index` does not exceed `PTRDIFF_MAX`; memory does not run out. -/
def allocate (n : Int) : Except Err (List (Option α)) := if n < 0 then .error .runtime else .ok (List.replicate n.toNat none)

/-- `resize` for overwriting (`element_array.h` 138-146). -/
def resizeForOverwrite (a : Arr α) (n : Int) : Except Err (Arr α) :=
  if n = 0 then .ok ⟨0, none⟩
  else if n ≠ a.size then
    match allocate n with
    | .ok l => .ok ⟨n, some l⟩
    | .error e => .error e
  else .ok a

/-- Writing to all elements of the range `[0, n)` (the `parallel_for` of `element_array.h` 56-59 and 73-77): nothing for an empty range, which one of a negative
number is too (`tbb::blocked_range::empty`). Without TBB, a negative number would be undefined behaviour in the constructor (57): not modelled. -/
def write (a : Arr α) (l : List (Option α)) : Arr α := if a.size ≤ 0 then a else ⟨a.size, a.data.map fun _ => l⟩

/-- Construction with a value (`element_array.h` 54-60). -/
def filled (n : Int) (v : α) : Except Err (Arr α) :=
  match resizeForOverwrite unset n with
  | .ok a => .ok (write a (List.replicate n.toNat (some v)))
  | .error e => .error e

/-- Construction from a range (`element_array.h` 69-78), also 84-89. -/
def ofRange (l : List (Option α)) : Except Err (Arr α) :=
  match resizeForOverwrite unset l.length with
  | .ok a => .ok (write a l)
  | .error e => .error e

/-- What is between `begin` and `end` (`element_array.h` 118-124). Past the end of what was allocated, or through a null pointer, is undefined behaviour. -/
def between (a : Arr α) : Except Err (List (Option α)) :=
  if a.size ≤ 0 then .ok []
  else
    match a.data with
    | none => .error .ub
    | some l => if a.size.toNat ≤ l.length then .ok (l.take a.size.toNat) else .error .ub

/-- `from_other` (`element_array.h` 149-157), the copy constructor (96-97). -/
def copyOf (a : Arr α) : Except Err (Arr α) :=
  if a.size = -1 then .ok unset
  else if a.size = 0 then .ok ⟨0, none⟩
  else
    match between a with
    | .ok l => ofRange l
    | .error e => .error e

/-- The arrays of a program by number. -/
abbrev State (α : Type) := Nat → Arr α

/-- A member of the state replaced (an assignment to `*this`, `element_array.h` 99-104). -/
def State.set (s : State α) (i : Nat) (a : Arr α) : State α := fun j => if j = i then a else s j

/-- The move assignment (`element_array.h` 99-104), statement by statement; a `unique_ptr` moved to itself keeps its pointer, moved from is null. -/
def moveAssign (s : State α) (dst src : Nat) : State α :=
  let p := (s src).data
  -- m_data = std::move(other.m_data)
  let s1 := (s.set src ⟨(s src).size, none⟩)
  let s2 := s1.set dst ⟨(s1 dst).size, p⟩
  -- m_size = other.m_size
  let s3 := s2.set dst ⟨(s2 src).size, (s2 dst).data⟩
  -- other.m_size = -1
  s3.set src ⟨-1, (s3 src).data⟩

/-- The operations (`element_array.h` 52-146). `construct` and the ones below it make a new array in place of the one at `dst`; `write` sets an element by `data()[i]` (115-116). -/
inductive Op (α : Type) where
  | default (dst : Nat)
  | fill (dst : Nat) (n : Int) (v : α)
  | range (dst : Nat) (l : List α)
  | copy (dst src : Nat)
  | move (dst src : Nat)
  | copyAssign (dst src : Nat)
  | moveAssign (dst src : Nat)
  | reset (dst : Nat)
  | resize (dst : Nat) (n : Int)
  | resizeForOverwrite (dst : Nat) (n : Int)
  | write (dst i : Nat) (v : α)

/-- One operation (`element_array.h`; lines at the cases), with `zero` for `T()`. Construction in place of `dst` from itself is not something a program does; it is as if
`dst` had been constructed elsewhere first. -/
def step (zero : α) (s : State α) : Op α → Except Err (State α)
  | .default dst => .ok (s.set dst unset)                       -- 52
  | .fill dst n v => (filled n v).map (s.set dst)               -- 54-60
  | .range dst l => (ofRange (l.map some)).map (s.set dst)      -- 69-78
  | .copy dst src => (copyOf (s src)).map (s.set dst)           -- 96-97
  | .move dst src =>                                            -- 91-94
    .ok ((s.set src ⟨-1, none⟩).set dst (s src))
  | .copyAssign dst src =>                                      -- 106-108
    match between (s src) with
    | .ok l => (ofRange l).map (s.set dst)
    | .error e => .error e
  | .moveAssign dst src => .ok (ElementArray.moveAssign s dst src)  -- 99-104
  | .reset dst => .ok (s.set dst unset)                         -- 126-129
  | .resize dst n => (filled n zero).map (s.set dst)            -- 135
  | .resizeForOverwrite dst n => (ElementArray.resizeForOverwrite (s dst) n).map (s.set dst)  -- 138-146
  | .write dst i v =>                                           -- 116
    match (s dst).data with
    | some l => if i < l.length then .ok (s.set dst ⟨(s dst).size, some (l.set i (some v))⟩) else .error .ub
    | none => .error .ub

/-- A program of operations on arrays (`element_array.h` 52-146); an operation that throws changes nothing, undefined behaviour ends it. -/
def run (zero : α) : State α → List (Op α) → Except Err (State α)
  | s, [] => .ok s
  | s, op :: rest =>
    match step zero s op with
    | .ok s' => run zero s' rest
    | .error .ub => .error .ub
    | .error _ => run zero s rest

end Scipp.ElementArray
