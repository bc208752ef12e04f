import Verif.Model.VarianceFlags
/-
What it means that an operation handles variances correctly.
-/
namespace Scipp.VarFlags
variable {F : Type}

/-- Some operand has variances. -/
def SomeVar (ins : List (Data F)) : Prop := ∃ d ∈ ins, d.variances ≠ none

/-- The element of an operand at a position: the value, with its variance if there is one. -/
def Data.elem (d : Data F) (i : Nat) : Elem F :=
  match d.variances with
  | none => .plain (d.values i)
  | some s => .pair (d.values i) (s i)

/-- The operands satisfy the requirements of an operation: no variances in the arguments that must
not have any, variances in the arguments that need them, all or none where required; the first
operand is argument `k`. -/
structure Accepts (f : Flags) (k : Nat) (ins : List (Data F)) : Prop where
  forbidden : ∀ j d, ins[j]? = some d → k + j ∈ f.noArg → d.variances = none
  required : ∀ j d, ins[j]? = some d → k + j ∈ f.needArg → d.variances ≠ none
  allOrNone : f.allOrNone = true → (∀ d ∈ ins, d.variances = none) ∨ ∀ d ∈ ins, d.variances ≠ none

/-- The output `r` has, at the first `n` positions, the results `g`: with the variance given by the
operation if the output has variances (zero if the operation gives a value without variance). -/
def Holds [Zero F] (g : Nat → Elem F) (n : Nat) (r : Data F) : Prop :=
  ∀ i < n, match g i, r.variances with
    | .plain v, none => r.values i = v
    | .plain v, some s => r.values i = v ∧ s i = 0
    | .pair v x, some s => r.values i = v ∧ s i = x
    | .pair _ _, none => False

/-- An element operation is typed as the C++ compiler demands: it gives plain values if the
operation has no output variances or all its arguments are plain. -/
def Typed (drop : Prop) (op : List (Elem F) → Elem F) : Prop :=
  ∀ args, (drop ∨ ∀ a ∈ args, ∃ v, a = .plain v) → ∃ v, op args = .plain v

/-- Same for in-place operations: with plain arguments (or if it takes any) an element without
variance stays one. -/
def TypedInPlace (drop : Prop) (op : Elem F → List (Elem F) → Elem F) : Prop :=
  ∀ x args, (drop ∨ ∀ a ∈ args, ∃ v, a = .plain v) → ∃ v, op (.plain x) args = .plain v

end Scipp.VarFlags
