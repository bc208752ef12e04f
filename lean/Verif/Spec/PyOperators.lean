import Verif.Model.PyOperators
/-!
Vocabulary for statements about operators in Python.
-/
namespace Scipp.PyOps
variable {F : Type}

/-- The operand stands for the Python object: it is the object itself, or the number as scalar of type int64 or float64. -/
def Denotes : PyObj F → Operand F → Prop
  | .obj c i, y => y = .obj c i
  | .int n, y => y = .int64 n
  | .float x, y => y = .double x
  | .floatLike x, y => y = .double x
  | .other, _ => False

/-- Integers that fit 64 bits; all other operands. -/
def Fits : PyObj F → Prop
  | .int n => -2 ^ 63 ≤ n ∧ n < 2 ^ 63
  | _ => True

/-- Position in Variable < DataArray < Dataset; numbers come first. -/
def level : PyObj F → Nat
  | .obj .variable _ => 1
  | .obj .array _ => 2
  | .obj .dataset _ => 3
  | _ => 0

/-- Numbers. -/
def IsNumber : PyObj F → Prop
  | .int _ | .float _ | .floatLike _ => True
  | _ => False

/-- Objects of the library. -/
def IsObj : PyObj F → Prop
  | .obj _ _ => True
  | _ => False

/-- Objects of the library and numbers. -/
def IsOperand (o : PyObj F) : Prop := IsObj o ∨ IsNumber o

/-- The operation is available. -/
def Outcome.isCall : Outcome F → Prop
  | .call _ _ _ => True
  | _ => False

/-- The call computes `a op b`: the operands stand for `a` and `b`, in this order; a comparison may be turned around. -/
def Computes (op : Op) (a b : PyObj F) : Outcome F → Prop
  | .call op' x y =>
    (op' = op ∧ Denotes a x ∧ Denotes b y) ∨
    (Denotes b x ∧ Denotes a y ∧
      ((op = .lt ∧ op' = .gt) ∨ (op = .gt ∧ op' = .lt) ∨ (op = .le ∧ op' = .ge) ∨ (op = .ge ∧ op' = .le) ∨
        (op = .eq ∧ op' = .eq) ∨ (op = .ne ∧ op' = .ne)))
  | _ => False

/-- The operators `+`, `-`, `*`, `/`. -/
def Op.isBasic : Op → Prop
  | .add | .sub | .mul | .div => True
  | _ => False

end Scipp.PyOps
