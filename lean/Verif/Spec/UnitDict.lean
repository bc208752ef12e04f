import Verif.Model.UnitDict
/-!
Vocabulary for statements about units as dicts.
-/
namespace Scipp.UnitDict
open Scipp

/-- The integer is in the range of a signed bit field with `w` bits. -/
def Fits (w : Nat) (n : Int) : Prop := 0 < w ∧ -2 ^ (w - 1) ≤ n ∧ n < 2 ^ (w - 1)

/-- A unit that the units library can represent: all powers are in the range of their bit fields, which are smaller than an `int`. -/
structure Representable (widths : List Nat) (u : U) : Prop where
  hpowers : u.powers.length = 10
  hwidths : widths.length = 10
  hflags : u.flags.length = 4
  small : ∀ w ∈ widths, w ≤ 31
  fits : ∀ i (h : i < 10), Fits (widths[i]'(by omega)) (u.powers[i]'(by omega))

/-- The power given for a base unit in the dict: 0 if there is none. -/
def givenPower (d : PyDict Obj) (name : String) : Option Scalar :=
  match d.lookup "powers" with
  | some (.dict p) => some ((p.lookup name).getD (.int 0))
  | some (.scalar _) => none
  | none => some (.int 0)

/-- The bits of the powers in the units library as documented by it (not part of the repository). -/
def libraryWidths : List Nat := [4, 3, 4, 3, 3, 2, 2, 2, 2, 3]

/-- The number a Python object stands for: `True` is one, `False` is zero. -/
def pyNumber : Scalar → ℚ
  | .int n => n
  | .float x => x
  | .bool true => 1
  | .bool false => 0

end Scipp.UnitDict
