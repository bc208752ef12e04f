import Verif.Model.Dict
/-!
Iterating over a `core::Dict` that is being modified (`lib/core/include/scipp/core/dict.h` 46-145, 357-371).
Vectors have an address and a capacity here, since the iterators use them to notice modifications.
-/
namespace Scipp.DictIter
open Scipp
variable {K V : Type} [DecidableEq K]

/-- `std::vector` (`m_keys`, `m_values`, `dict.h` 374-375): address of the first element (0 is the null pointer), capacity, elements. An element takes one
address. -/
structure Vec (α : Type) where
  base : Nat
  cap : Nat
  elems : List α

/-- `push_back` (`dict.h` 278-279): if the capacity is exceeded, the elements move to new memory at `addr`. The new capacity is that of libstdc++. -/
def Vec.push {α : Type} (v : Vec α) (x : α) (addr : Nat) : Vec α :=
  if v.elems.length < v.cap then { v with elems := v.elems ++ [x] } else ⟨addr, max (2 * v.cap) 1, v.elems ++ [x]⟩

/-- Dereferencing a pointer into the vector (`dict.h` 62-70): outside of the elements, behaviour is undefined. -/
def Vec.read {α : Type} (v : Vec α) (p : Nat) : Except Err α :=
  if v.base ≤ p then
    match v.elems[p - v.base]? with
    | some x => .ok x
    | none => .error .ub
  else .error .ub

/-- The members of a `Dict` (`dict.h` 374-375). -/
structure Mem (K V : Type) where
  keys : Vec K
  values : Vec V

/-- Member functions that modify a dict (`dict.h` 276-299). With an insertion come the addresses that the allocator returns if the vectors grow. -/
inductive MOp (K V : Type)
  | insertOrAssign (key : K) (value : V) (keysAddr valuesAddr : Nat)
  | erase (key : K)
  | clear

/-- The operation (`dict.h` 276-299); exceptions leave the dict as it is, exceptions of the allocator are not modelled. Vectors keep their memory when elements
are removed. -/
def MOp.apply (m : Mem K V) : MOp K V → Mem K V
  | .insertOrAssign k v ka va =>
    if Dict.findIndex k m.keys.elems = m.keys.elems.length then ⟨m.keys.push k ka, m.values.push v va⟩
    else { m with values := { m.values with elems := m.values.elems.set (Dict.findIndex k m.keys.elems) v } }
  | .erase k =>
    if Dict.findIndex k m.keys.elems = m.keys.elems.length then m
    else
      ⟨{ m.keys with elems := m.keys.elems.eraseIdx (Dict.findIndex k m.keys.elems) },
       { m.values with elems := m.values.elems.eraseIdx (Dict.findIndex k m.keys.elems) }⟩
  | .clear => ⟨{ m.keys with elems := [] }, { m.values with elems := [] }⟩

/-- Several operations, one after the other (`dict.h` 276-299). -/
def applyAll (m : Mem K V) (ops : List (MOp K V)) : Mem K V := ops.foldl MOp.apply m

/-- `Iterator` with two pointers (`dict.h` 129-133): over keys and values, the address and size of the keys at construction. -/
structure Iter where
  key : Nat
  value : Nat
  base : Nat
  size : Nat

/-- `begin()` (`dict.h` 357-359, constructor 55-60). -/
def begin' (m : Mem K V) : Iter := ⟨m.keys.base, m.values.base, m.keys.base, m.keys.elems.length⟩

/-- `end()` (`dict.h` 361-363; the const version, 369-371, has another value pointer, which is not used). -/
def end' (m : Mem K V) : Iter := ⟨m.keys.base + m.keys.elems.length, m.values.base + m.values.elems.length, m.keys.base, m.keys.elems.length⟩

/-- `expect_container_unchanged` (`dict.h` 137-143). -/
def Iter.check (it : Iter) (m : Mem K V) : Except Err Unit :=
  if m.keys.base ≠ it.base ∨ m.keys.elems.length ≠ it.size then .error .runtime else .ok ()

/-- `operator*` (`dict.h` 62-70). -/
def Iter.deref (it : Iter) (m : Mem K V) : Except Err (K × V) := do
  it.check m
  let k ← m.keys.read it.key
  let v ← m.values.read it.value
  return (k, v)

/-- `operator++` (`dict.h` 83-89). -/
def Iter.next (it : Iter) (m : Mem K V) : Except Err Iter := do
  it.check m
  return { it with key := it.key + 1, value := it.value + 1 }

/-- `operator==` (`dict.h` 91-95). -/
def Iter.eq (it other : Iter) (m : Mem K V) : Except Err Bool := do
  it.check m
  return decide (it.key = other.key)

/-- How a loop ends: at the end of the dict, or because the program leaves it (loops over `begin()` and `end()`, `dict.h` 357-363). -/
inductive Ended
  | finished
  | left
  deriving DecidableEq, Repr

/-- A loop `for (auto it = begin; it != end; ++it)` (`dict.h` 62-99) or its equivalent in Python (`py::make_iterator`, `lib/python/bind_data_array.h` 29-43): the `i`-th
element of `bodies` are the modifications made while the `i`-th item is visited; the loop is left after the last of them. Result: the items visited and how
the loop ends. -/
def loop (m : Mem K V) (it fin : Iter) : List (List (MOp K V)) → List (K × V) × Except Err Ended
  | [] =>
    match it.eq fin m with
    | .error e => ([], .error e)
    | .ok true => ([], .ok .finished)
    | .ok false => ([], .ok .left)
  | body :: rest =>
    match it.eq fin m with
    | .error e => ([], .error e)
    | .ok true => ([], .ok .finished)
    | .ok false =>
      match it.deref m with
      | .error e => ([], .error e)
      | .ok item =>
        match it.next (applyAll m body) with
        | .error e => ([item], .error e)
        | .ok it' => (item :: (loop (applyAll m body) it' fin rest).1, (loop (applyAll m body) it' fin rest).2)

/-- The loop over a dict (`dict.h` 357-363). -/
def iterate (m : Mem K V) (bodies : List (List (MOp K V))) : List (K × V) × Except Err Ended := loop m (begin' m) (end' m) bodies

end Scipp.DictIter
