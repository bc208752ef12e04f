import Verif.Model.Sizes
import Mathlib.Algebra.Field.Rat
/-!
Units as Python dicts (`lib/python/bind_units.cpp` 16-100, `lib/units/include/scipp/units/unit.h` 46-66).
-/
namespace Scipp.UnitDict
open Scipp

/-- Names of the base units, in the order of `map_over_bases` (`unit.h` 46-58) and of `from_dict` (`bind_units.cpp` 91-95). -/
def bases : List String := ["m", "kg", "s", "A", "K", "mol", "cd", "$", "counts", "rad"]

/-- Names of the flags, in the order of `map_over_flags` (`unit.h` 60-66) and of `from_dict` (`bind_units.cpp` 95-97). -/
def flagNames : List String := ["per_unit", "i_flag", "e_flag", "equation"]

/-- `precise_unit` of the units library, which is not part of the repository, as used in `unit.h` 46-66: multiplier (rounding is not modelled), powers of the base
units in the order of `bases`, flags in the order of `flagNames`, commodity. -/
structure U where
  mult : ℚ
  powers : List Int
  flags : List Bool
  commodity : Nat
  deriving DecidableEq

/-- Python objects in the dict of a unit (`bind_units.cpp` 19-21) that are not dicts. -/
inductive Scalar
  | int (n : Int)
  | float (x : ℚ)
  | bool (b : Bool)
  deriving DecidableEq

/-- Python objects in the dict of a unit (`bind_units.cpp` 19-21). -/
inductive Obj
  | scalar (s : Scalar)
  | dict (d : List (String × Scalar))
  deriving DecidableEq

/-- A Python dict with names as keys (`bind_units.cpp` 19-21), in the order of insertion. -/
abbrev PyDict (α : Type) := List (String × α)

/-- `dict[name]` (`bind_units.cpp` 66-71): an error if the name is missing. -/
def item {α : Type} (d : PyDict α) (name : String) : Except Err α :=
  match d.lookup name with
  | some x => .ok x
  | none => .error .notFound

/-- `cast<int>` (`bind_units.cpp` 66-71): integers of 32 bit and bools, a `cast_error` otherwise. -/
def castInt : Scalar → Except Err Int
  | .int n => if -2 ^ 31 ≤ n ∧ n < 2 ^ 31 then .ok n else .error .runtime
  | .bool b => .ok (if b then 1 else 0)
  | .float _ => .error .runtime

/-- `cast<double>` (`bind_units.cpp` 98). -/
def castDouble : Scalar → Except Err ℚ
  | .int n => .ok n
  | .bool b => .ok (if b then 1 else 0)
  | .float x => .ok x

/-- `cast<bool>` (`bind_units.cpp` 66-71): the truth value of the object. -/
def castBool : Scalar → Bool
  | .int n => n ≠ 0
  | .bool b => b
  | .float x => x ≠ 0

/-- The scalars among the objects; a dict cannot be cast to a number (`bind_units.cpp` 66-71). -/
def Obj.asScalar : Obj → Except Err Scalar
  | .scalar s => .ok s
  | .dict _ => .error .runtime

/-- `to_dict` (`bind_units.cpp` 40-64). -/
def toDict (u : U) : Except Err (PyDict Obj) :=
  if u.commodity ≠ 0 then .error .invalidArgument
  else
    let flags : PyDict Obj := ((flagNames.zip u.flags).filter Prod.snd).map fun p => (p.1, .scalar (.bool true))
    let powers : PyDict Scalar := ((bases.zip u.powers).filter fun p => p.2 ≠ 0).map fun p => (p.1, .int p.2)
    .ok ([("__version__", .scalar (.int 2)), ("multiplier", .scalar (.float u.mult))] ++ flags ++
      if powers.isEmpty then [] else [("powers", .dict powers)])

/-- `get(powers, name)` (`bind_units.cpp` 66-71) for integers. -/
def getInt (d : PyDict Scalar) (name : String) : Except Err Int :=
  match d.lookup name with
  | some x => castInt x
  | none => .ok 0

/-- `get<bool>(dict, name)` (`bind_units.cpp` 66-71); dicts are true if they are not empty. -/
def getBool (d : PyDict Obj) (name : String) : Bool :=
  match d.lookup name with
  | some (.scalar x) => castBool x
  | some (.dict l) => !l.isEmpty
  | none => false

/-- `assert_dict_version_supported` (`bind_units.cpp` 73-86). -/
def checkVersion (d : PyDict Obj) : Except Err Unit := do
  let v ← item d "__version__"
  let v ← v.asScalar
  let v ← castInt v
  if v = 1 ∨ v = 2 then .ok () else .error .invalidArgument

/-- The dict of the powers (`bind_units.cpp` 91): scalars cannot be converted to a dict. -/
def powersOf (d : PyDict Obj) : Except Err (PyDict Scalar) :=
  match d.lookup "powers" with
  | some (.dict p) => .ok p
  | some (.scalar _) => .error .runtime
  | none => .ok []

/-- An integer in a signed bit field with `w` bits (constructor of `unit_data`, `bind_units.cpp` 93): the remainder modulo `2^w`. -/
def wrap (w : Nat) (n : Int) : Int := (n + 2 ^ (w - 1)) % 2 ^ w - 2 ^ (w - 1)

/-- `from_dict` (`bind_units.cpp` 88-100). `widths` are the numbers of bits of the powers in the units library. -/
def fromDict (widths : List Nat) (d : PyDict Obj) : Except Err U := do
  checkVersion d
  let p ← powersOf d
  let powers ← bases.mapM (getInt p)
  let m ← item d "multiplier"
  let m ← m.asScalar
  let m ← castDouble m
  return ⟨m, List.zipWith wrap widths powers, flagNames.map (getBool d), 0⟩

end Scipp.UnitDict
