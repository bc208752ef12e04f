import Verif.Model.TransformDims
/-!
Vocabulary for statements about the renaming of dims by coordinate transformations.
-/
namespace Scipp.TransformDims

/-- There is an edge: `c` is computed from `n`. -/
def Dag.Edge (g : Dag) (n c : Name) : Prop := c ∈ g.nodes ∧ n ∈ g.deps c

/-- `n` is `d` or is computed from it, directly or not. -/
inductive Dag.From (g : Dag) (d : Name) : Name → Prop
  | self : Dag.From g d d
  | step {n c : Name} : Dag.From g d n → g.Edge n c → Dag.From g d c

/-- `n` can be uniquely associated with `d`: starting from `d`, every node on the way has only one child, and no other dim-coord is met. -/
inductive Dag.Chain (g : Dag) (dims : List Name) (d : Name) : Name → Prop
  | self : Dag.Chain g dims d d
  | step {n c : Name} : Dag.Chain g dims d n → g.Edge n c → (∀ c', g.Edge n c' → c' = c) → c ∉ dims → Dag.Chain g dims d c

/-- An order in which every node comes after the nodes it depends on. -/
def Dag.Topological (g : Dag) (order : List Name) : Prop :=
  g.nodes.Nodup ∧ order.Nodup ∧ (∀ n, n ∈ order ↔ n ∈ g.nodes) ∧ ∀ pre n post, order = pre ++ n :: post → ∀ d ∈ g.deps n, d ∈ pre

/-- What is computed from `d` is a tree: no node is reached in two ways. -/
def Dag.Tree (g : Dag) (d : Name) : Prop := ∀ n p q, g.From d p → g.From d q → g.Edge p n → g.Edge q n → p = q

/-- The documented new name: the farthest node that can be uniquely associated with the dim and with no other. -/
def Dag.NewName (g : Dag) (dims : List Name) (d n : Name) : Prop :=
  g.Chain dims d n ∧ (∀ d' ∈ dims, d' ≠ d → ¬ g.Chain dims d' n) ∧
  ∀ c, g.Edge n c → (∀ c', g.Edge n c' → c' = c) → c ∉ dims → ∃ d' ∈ dims, d' ≠ d ∧ g.Chain dims d' c

end Scipp.TransformDims
