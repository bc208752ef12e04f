import Verif.Model.PyDict

/-!
What Python's own `dict` does, after the Python language reference: items are kept in order of
insertion, assigning to an existing key does not change its place, deleting and inserting again puts
it at the end, `popitem` takes the item inserted last, `update` assigns one item after another.
-/

namespace Scipp.PyDict

variable {K V : Type} [DecidableEq K]

/-- `l[k] = v` -/
def pySet (l : List (K × V)) (k : K) (v : V) : List (K × V) :=
  if k ∈ l.map Prod.fst then l.map (fun q => if q.1 = k then (k, v) else q) else l ++ [(k, v)]

/-- `del l[k]` for a key that is there -/
def pyDel (l : List (K × V)) (k : K) : List (K × V) := l.filter (fun q => decide (q.1 ≠ k))

/-- Python's `dict`: new contents and what is returned. -/
def pyStep (l : List (K × V)) : Op K V → List (K × V) × Out K V
  | .getItem k => (l, match l.lookup k with
    | some v => .value v
    | Option.none => .error .notFound)
  | .setItem k v => (pySet l k v, .none)
  | .delItem k => match l.lookup k with
    | some _ => (pyDel l k, .none)
    | Option.none => (l, .error .notFound)
  | .contains k => (l, .bool (decide (k ∈ l.map Prod.fst)))
  | .len => (l, .nat l.length)
  | .items => (l, .items l)
  | .get k d => (l, match l.lookup k, d with
    | some v, _ => .value v
    | Option.none, some v => .value v
    | Option.none, Option.none => .none)
  | .pop k d => match l.lookup k, d with
    | some v, _ => (pyDel l k, .value v)
    | Option.none, some v => (l, .value v)
    | Option.none, Option.none => (l, .error .notFound)
  | .popItem => match l.getLast? with
    | some (k, v) => (l.dropLast, .pair k v)
    | Option.none => (l, .error .notFound)
  | .clear => ([], .none)
  | .update ps => (ps.foldl (fun m p => pySet m p.1 p.2) l, .none)

/-- A program that uses Python's `dict`. -/
def pyRun (l : List (K × V)) : List (Op K V) → List (K × V) × List (Out K V)
  | [] => (l, [])
  | op :: ops =>
    let r := pyStep l op
    let q := pyRun r.1 ops
    (q.1, r.2 :: q.2)

/-- The values a use of the dict puts into it. -/
def Op.inserted : Op K V → List V
  | .setItem _ v => [v]
  | .update ps => ps.map Prod.snd
  | _ => []

/-- The dict has the items `l`, in this order, with unique keys. -/
def Has (s : Map K V) (l : List (K × V)) : Prop :=
  s.dict.keys = l.map Prod.fst ∧ s.dict.values = l.map Prod.snd ∧ (l.map Prod.fst).Nodup

end Scipp.PyDict
