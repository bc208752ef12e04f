import Verif.Model.Sizes
import Mathlib.Algebra.Field.Rat
/-!
Renaming of dims in `transform_coords` (`src/scipp/coords/transform_coords.py` 307-343).

The graph (after `graph_for`, see `Model/TransformCoords.lean`) is given by its nodes, in the order of the dict, and the dependencies of the rule of each node.
-/
namespace Scipp.TransformDims

abbrev Name := Nat

/-- Nodes and dependencies of a `Graph` (`graph.py` 19-45). -/
structure Dag where
  nodes : List Name
  deps : Name → List Name

/-- `Graph.children_of` (`graph.py` 44-47). -/
def Dag.children (g : Dag) (n : Name) : List Name := g.nodes.filter (fun c => decide (n ∈ g.deps c))

/-- Adds the share of `n` to its children (`transform_coords.py` 317-322). `colors` are those of one dim. -/
def Dag.addShares (g : Dag) (dims : List Name) (n : Name) (colors : Name → Rat) : Name → Rat :=
  fun c => if c ∈ g.children n ∧ c ∉ dims then colors c + colors n * (1 / (g.children n).length) else colors c

/-- Depth-first loop of `_color_dims` (`transform_coords.py` 313-323) for one dim. The head of the list is the end of the Python list. The first argument bounds the number
of rounds. `addShares` reads the share of `n` once, Python for each child: the same since no node is its own child. -/
def Dag.colorLoop (g : Dag) (dims : List Name) : Nat → List Name → (Name → Rat) → Except Err (Name → Rat)
  | 0, _, _ => .error .ub
  | _ + 1, [], colors => .ok colors
  | k + 1, n :: stack, colors => g.colorLoop dims k ((g.children n).reverse ++ stack) (g.addShares dims n colors)

/-- `_color_dims` (`transform_coords.py` 307-325) for one dim: the loop for a dim reads and writes only the colors of that dim. -/
def Dag.colorDim (g : Dag) (dims : List Name) (rounds : Nat) (dim : Name) : Except Err (Name → Rat) :=
  g.colorLoop dims rounds [dim] (fun c => if c = dim then 1 else 0)

/-- `_has_full_color_of_dim` (`transform_coords.py` 328-331). -/
def fullColor (dims : List Name) (colors : Name → Name → Rat) (n dim : Name) : Bool :=
  dims.all (fun d => if d = dim then decide (colors d n = 1) else decide (colors d n ≠ 1))

/-- Colors of all dims. -/
def Dag.colorAll (g : Dag) (dims : List Name) (rounds : Nat) : List Name → Except Err (Name → Name → Rat)
  | [] => .ok (fun _ _ => 0)
  | d :: ds =>
    match g.colorDim dims rounds d with
    | .error e => .error e
    | .ok c => match Dag.colorAll g dims rounds ds with
      | .error e => .error e
      | .ok cs => .ok (fun d' n => if d' = d then c n else cs d' n)

/-- `_dim_name_changes` (`transform_coords.py` 334-343) for a topological order of the nodes: the new name of each dim that gets one. -/
def Dag.nameChanges (g : Dag) (dims : List Name) (rounds : Nat) (order : List Name) : Except Err (Name → Option Name) :=
  match g.colorAll dims rounds dims with
  | .error e => .error e
  | .ok colors => .ok (fun dim => if dim ∈ dims then order.reverse.find? (fun n => fullColor dims colors n dim) else none)

end Scipp.TransformDims
