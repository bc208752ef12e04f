import Verif.Model.Sizes
/-
Model of `core::Dict` (`lib/core/include/scipp/core/dict.h` 227-427), the insertion-ordered
dictionary behind coords, masks and the items of a dataset. The two parallel vectors are kept as
two lists. Reservation of capacity is not modelled.
-/
namespace Scipp
variable {K V : Type} [DecidableEq K]

/-- `Dict` with its members `m_keys`, `m_values` (`dict.h` 391-393). -/
structure Dict (K V : Type) where
  keys : List K
  values : List V
  deriving DecidableEq, Repr

namespace Dict

/-- `Dict() = default` (`dict.h` 258). -/
def empty : Dict K V := ⟨[], []⟩

/-- `find_key` followed by `index_of` (`dict.h` 395-397, 410-412): position of the first equal
key, the number of keys (`m_keys.end()`) if there is none. -/
def findIndex (key : K) : List K → Nat
  | [] => 0
  | k :: ks => if k = key then 0 else findIndex key ks + 1

/-- `contains` (`dict.h` 272-274). -/
def contains (d : Dict K V) (key : K) : Bool := findIndex key d.keys != d.keys.length

/-- `insert_or_assign` (`dict.h` 276-283). Assigning past the end of `m_values` is undefined
behaviour. -/
def insertOrAssign (d : Dict K V) (key : K) (value : V) : Except Err (Dict K V) :=
  if findIndex key d.keys = d.keys.length then .ok ⟨d.keys ++ [key], d.values ++ [value]⟩
  else if findIndex key d.keys < d.values.length then
    .ok ⟨d.keys, d.values.set (findIndex key d.keys) value⟩
  else .error .ub

/-- `expect_find_key`/`expect_find_index` (`dict.h` 399-408, 414-416). -/
def expectFindIndex (d : Dict K V) (key : K) : Except Err Nat :=
  if findIndex key d.keys = d.keys.length then .error .notFound else .ok (findIndex key d.keys)

/-- `extract` (`dict.h` 287-294): the extracted value and the remaining dict. -/
def extract (d : Dict K V) (key : K) : Except Err (V × Dict K V) := do
  let i ← d.expectFindIndex key
  match d.values[i]? with
  | none => .error .ub
  | some v => .ok (v, ⟨d.keys.eraseIdx i, d.values.eraseIdx i⟩)

/-- `erase` (`dict.h` 285). -/
def erase (d : Dict K V) (key : K) : Except Err (Dict K V) := do
  let r ← d.extract key
  return r.2

/-- `clear` (`dict.h` 296-299). -/
def clear (_ : Dict K V) : Dict K V := ⟨[], []⟩

/-- `operator[]`, `at` (`dict.h` 301-313). -/
def at' (d : Dict K V) (key : K) : Except Err V := do
  let i ← d.expectFindIndex key
  match d.values[i]? with
  | none => .error .ub
  | some v => .ok v

/-- Initializer-list constructor (`dict.h` 249-256). -/
def ofListAux : Dict K V → List (K × V) → Except Err (Dict K V)
  | d, [] => .ok d
  | d, (k, v) :: rest =>
    if d.contains k then .error .invalidArgument
    else do
      let d' ← d.insertOrAssign k v
      ofListAux d' rest

/-- Initializer-list constructor (`dict.h` 249-256). -/
def ofList (items : List (K × V)) : Except Err (Dict K V) := ofListAux empty items

/-- Pairs visited by iterating from `begin()` to `end()` (`dict.h` 373-388): both iterators
advance together (`dict.h` 72-78) until the first, over the keys, reaches its end. -/
def items (d : Dict K V) : List (K × V) := d.keys.zip d.values

end Dict

/-- A member function that modifies a `Dict` (`dict.h` 276-299). -/
inductive DictOp (K V : Type)
  | insertOrAssign (key : K) (value : V)
  | erase (key : K)
  | clear
  deriving DecidableEq, Repr

/-- Apply an operation. Exceptions leave the dict as it is: the only throwing statement of `extract`
is its first (`dict.h` 288). Undefined behaviour ends the run. -/
def DictOp.apply (d : Dict K V) : DictOp K V → Except Err (Dict K V)
  | .insertOrAssign k v => d.insertOrAssign k v
  | .erase k =>
    match d.erase k with
    | .error .ub => .error .ub
    | .error _ => .ok d
    | .ok d' => .ok d'
  | .clear => .ok d.clear

/-- A history of operations on an initially empty dict (`dict.h` 258, 276-299). -/
def DictOp.run (ops : List (DictOp K V)) : Except Err (Dict K V) := ops.foldlM DictOp.apply Dict.empty

end Scipp
