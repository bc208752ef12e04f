import Verif.Model.Dict

/-!
The dicts of coords and masks as seen from Python: `bind_mutable_view`, `bind_mutable_view_no_dim`
(lib/python/bind_data_array.h) and the methods added in Python (src/scipp/_binding.py).
-/

namespace Scipp.PyDict

open Scipp

variable {K V : Type} [DecidableEq K]

/-- `SizedDict` with its items and read-only flag (lib/dataset/include/scipp/dataset/sized_dict.h:160-165).
The sizes enter through the test `fits` that is a parameter of the functions below. -/
structure Map (K V : Type) where
  dict : Dict K V
  readonly : Bool
  deriving DecidableEq, Repr

/-- `__getitem__` (lib/python/bind_data_array.h:64-70): `SizedDict::at`
(lib/dataset/sized_dict.cpp:149-172). -/
def getItem (s : Map K V) (k : K) : Except Err V := s.dict.at' k

/-- `__setitem__` (lib/python/bind_data_array.h:71-74): `SizedDict::set`
(lib/dataset/sized_dict.cpp:220-251).  `fits` is the check of dims, modelled in full for C35 (`SizedDict`).
Simplified: the early return if the very same variable is already there, which changes nothing, is
left out. -/
def setItem (fits : V → Bool) (s : Map K V) (k : K) (v : V) : Except Err (Map K V) :=
  if s.readonly then .error .readonly
  else if fits v then
    match s.dict.insertOrAssign k v with
    | .error e => .error e
    | .ok d => .ok { s with dict := d }
  else .error .dimension

/-- `SizedDict::extract` (lib/dataset/sized_dict.cpp:257-261), `_pop` (lib/python/bind_data_array.h:129-137). -/
def extract (s : Map K V) (k : K) : Except Err (V × Map K V) :=
  if s.readonly then .error .readonly
  else match s.dict.extract k with
    | .error e => .error e
    | .ok (v, d) => .ok (v, { s with dict := d })

/-- `__delitem__` (lib/python/bind_data_array.h:75-80): `SizedDict::erase`
(lib/dataset/sized_dict.cpp:252-255). -/
def delItem (s : Map K V) (k : K) : Except Err (Map K V) :=
  match extract s k with
  | .error e => .error e
  | .ok (_, s') => .ok s'

/-- `get` (src/scipp/_binding.py:59-66): `KeyError`, which `NotFoundError` is translated to
(lib/python/except.cpp:73), gives the default; other exceptions pass. -/
def get (s : Map K V) (k : K) (default : Option V) : Except Err (Option V) :=
  match getItem s k with
  | .ok v => .ok (some v)
  | .error .notFound => .ok default
  | .error e => .error e

/-- `pop` (src/scipp/_binding.py:116-124).  `default` is `none` if there is no such argument. -/
def pop (s : Map K V) (k : K) (default : Option V) : Except Err (V × Map K V) :=
  match s.dict.contains k, default with
  | false, some v => .ok (v, s)
  | _, _ => extract s k

/-- `popitem` (lib/python/bind_data_array.h:161-180): the last key in order of iteration, or the
default-constructed key `key0` if there is none. -/
def popItem (key0 : K) (s : Map K V) : Except Err ((K × V) × Map K V) :=
  let key := s.dict.keys.foldl (fun _ k => k) key0
  match extract s key with
  | .error e => .error e
  | .ok (v, s') => .ok ((key, v), s')

/-- `clear` (lib/python/bind_data_array.h:150-158): erase all keys collected before.  If one cannot be
erased the state is what it was by then. -/
def eraseAll (s : Map K V) : List K → Map K V × Option Err
  | [] => (s, none)
  | k :: ks =>
    match delItem s k with
    | .error e => (s, some e)
    | .ok s' => eraseAll s' ks

/-- `clear` (lib/python/bind_data_array.h:150-158). -/
def clear (s : Map K V) : Map K V × Option Err := eraseAll s s.dict.keys

/-- The loop over `args` in `update` (lib/python/bind_data_array.h:107-109). -/
def setAll (fits : V → Bool) (s : Map K V) : List (K × V) → Map K V × Option Err
  | [] => (s, none)
  | p :: ps =>
    match setItem fits s p.1 p.2 with
    | .error e => (s, some e)
    | .ok s' => setAll fits s' ps

/-- The temporary Python dict `args` (lib/python/bind_data_array.h:95-105): the items of `other` and of
`kwargs`, one after another.  Python's dict is modelled by an association list with entries in
order of insertion. -/
def gather (args : List (K × V)) : List (K × V) → List (K × V)
  | [] => args
  | p :: ps =>
    gather (if p.1 ∈ args.map Prod.fst
      then args.map (fun q => if q.1 = p.1 then (q.1, p.2) else q) else args ++ [p]) ps

/-- `update` (lib/python/bind_data_array.h:90-109) with the pairs given by `other` and `kwargs`. -/
def update (fits : V → Bool) (s : Map K V) (pairs : List (K × V)) : Map K V × Option Err :=
  setAll fits s (gather [] pairs)

/-- `keys_view::operator==` and `str_keys_view::operator==` (lib/python/view.h:67-71,90-94):
`std::is_permutation` of the keys. -/
def keysEq (s t : Map K V) : Bool := s.dict.keys.isPerm t.dict.keys

/-- A use of the dict in Python (the methods bound in lib/python/bind_data_array.h:60-88, 211-300). -/
inductive Op (K V : Type) where
  | getItem (k : K)
  | setItem (k : K) (v : V)
  | delItem (k : K)
  | contains (k : K)
  | len
  | items
  | get (k : K) (default : Option V)
  | pop (k : K) (default : Option V)
  | popItem
  | clear
  | update (pairs : List (K × V))
  deriving DecidableEq, Repr

/-- What Python gets to see: `None`, a value, a pair, a truth value, a number, the items in order of
iteration, or an exception (results of the methods in lib/python/bind_data_array.h:60-300). -/
inductive Out (K V : Type) where
  | none
  | value (v : V)
  | pair (k : K) (v : V)
  | bool (b : Bool)
  | nat (n : Nat)
  | items (l : List (K × V))
  | error (e : Err)
  deriving DecidableEq, Repr

/-- One use of the dict: the new state and what is returned.  Exceptions leave the state as it is,
except in `clear` and `update`, which have loops (lib/python/bind_data_array.h:60-180). -/
def step (fits : V → Bool) (key0 : K) (s : Map K V) : Op K V → Map K V × Out K V
  | .getItem k => match getItem s k with
    | .ok v => (s, .value v)
    | .error e => (s, .error e)
  | .setItem k v => match setItem fits s k v with
    | .ok s' => (s', .none)
    | .error e => (s, .error e)
  | .delItem k => match delItem s k with
    | .ok s' => (s', .none)
    | .error e => (s, .error e)
  | .contains k => (s, .bool (s.dict.contains k))
  | .len => (s, .nat s.dict.keys.length)
  | .items => (s, .items s.dict.items)
  | .get k d => match get s k d with
    | .ok (some v) => (s, .value v)
    | .ok Option.none => (s, .none)
    | .error e => (s, .error e)
  | .pop k d => match pop s k d with
    | .ok (v, s') => (s', .value v)
    | .error e => (s, .error e)
  | .popItem => match popItem key0 s with
    | .ok ((k, v), s') => (s', .pair k v)
    | .error e => (s, .error e)
  | .clear => match clear s with
    | (s', Option.none) => (s', .none)
    | (s', some e) => (s', .error e)
  | .update ps => match update fits s ps with
    | (s', Option.none) => (s', .none)
    | (s', some e) => (s', .error e)

/-- A program that uses the dict (any sequence of calls of the methods in
lib/python/bind_data_array.h:60-300): final state and everything that was returned. -/
def run (fits : V → Bool) (key0 : K) (s : Map K V) : List (Op K V) → Map K V × List (Out K V)
  | [] => (s, [])
  | op :: ops =>
    let r := step fits key0 s op
    let q := run fits key0 r.1 ops
    (q.1, r.2 :: q.2)

end Scipp.PyDict
