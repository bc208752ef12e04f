import Verif.Model.Sizes
/-!
Coordinate transformations `transform_coords` (`src/scipp/coords/*.py`).

Names of coords are numbers. `V` stands for variables; `binned v` says whether `v.bins` is not `None`, `hasDim v d` whether
`d in v.dims`. Kernels are arbitrary functions of the inputs which may raise.
-/
namespace Scipp.TransformCoords

abbrev Name := Nat

/-- What a kernel returns: a single variable or a dict (`rule.py` 177-185). -/
inductive Output (V : Type) where
  | single (v : V)
  | dict (l : List (Name × V))

/-- A rule given by the user (`rule.py` 91-139): `RenameRule` or `ComputeRule`. `args` are the keys of `_arg_names` (`rule.py` 214-229), which are distinct;
the inspection of signatures is left out. -/
inductive Rule (V : Type) where
  | rename (outs : List Name) (inName : Name)
  | compute (outs args : List Name) (func : List V → Except Err (Output V))

/-- `Rule.out_names` (`rule.py` 39-41). -/
def Rule.outs {V : Type} : Rule V → List Name
  | .rename outs _ => outs
  | .compute outs _ _ => outs

/-- `Rule.dependencies` (`rule.py` 107-109, 187-189). -/
def Rule.deps {V : Type} : Rule V → List Name
  | .rename _ i => [i]
  | .compute _ args _ => args

/-- A rule object of the graph: a `FetchRule` for one input (`rule.py` 56-88) or the rule with an index in the graph given by the user. The index is the identity of
the object. -/
inductive Ref where
  | fetch (n : Name)
  | user (i : Nat)
  deriving DecidableEq, Repr

/-- `_convert_to_rule_graph` (`graph.py` 129-140): maps every product to the index of its rule. The products are counted from `i`. -/
def convertFrom {V : Type} (i : Nat) : List (Rule V) → List (Name × Nat) → Except Err (List (Name × Nat))
  | [], acc => .ok acc
  | r :: rs, acc =>
    if r.outs.Nodup ∧ ∀ n ∈ r.outs, n ∉ acc.map Prod.fst then convertFrom (i + 1) rs (acc ++ r.outs.map (·, i))
    else .error .invalidArgument

/-- The input: coords, coords of the events (`none` for dense data), dims. -/
structure Source (V : Type) where
  coords : Name → Option V
  events : Option (Name → Option V)
  dims : List Name

/-- Coord of the events of a given name, if any (`rule.py` 77). -/
def Source.event {V : Type} (s : Source V) (n : Name) : Option V :=
  match s.events with
  | none => none
  | some e => e n

/-- `_is_in_coords` (`graph.py` 143-144). -/
def Source.has {V : Type} (s : Source V) (n : Name) : Bool := (s.coords n).isSome || (s.event n).isSome

/-- `Graph`: the rules and the table of products (`graph.py` 19-28). -/
structure Graph (V : Type) where
  rules : List (Rule V)
  table : List (Name × Nat)

/-- `Graph(graph)` (`graph.py` 20-28) for a dict given by the user. -/
def Graph.make {V : Type} (rules : List (Rule V)) : Except Err (Graph V) :=
  match convertFrom 0 rules [] with
  | .error e => .error e
  | .ok t => .ok ⟨rules, t⟩

/-- `rule.out_names` of a rule object. -/
def Graph.outs {V : Type} (g : Graph V) : Ref → List Name
  | .fetch n => [n]
  | .user i => match g.rules[i]? with
    | none => []
    | some r => r.outs

/-- `rule.dependencies` of a rule object (`rule.py` 83-85 for `FetchRule`). -/
def Graph.deps {V : Type} (g : Graph V) : Ref → List Name
  | .fetch _ => []
  | .user i => match g.rules[i]? with
    | none => []
    | some r => r.deps

/-- `Graph._rule_for` (`graph.py` 73-82). -/
def Graph.ruleFor {V : Type} (g : Graph V) (s : Source V) (n : Name) : Except Err Ref :=
  if s.has n then .ok (.fetch n)
  else match g.table.lookup n with
    | some i => .ok (.user i)
    | none => .error .notFound

/-- `subgraph[name] = rule` for a list of names: a dict as a function together with nothing else (the order of insertion is left out: the order in which the nodes are
used is that of an arbitrary topological order). -/
def setAll (sub : Name → Option Ref) (names : List Name) (r : Ref) : Name → Option Ref :=
  fun n => if n ∈ names then some r else sub n

/-- Loop of `Graph.graph_for` (`graph.py` 61-71). The head of the list is the top of the stack. The first argument bounds the number of rounds. -/
def Graph.graphForLoop {V : Type} (g : Graph V) (s : Source V) : Nat → List Name → (Name → Option Ref) → Except Err (Name → Option Ref)
  | 0, _, _ => .error .ub
  | _ + 1, [], sub => .ok sub
  | k + 1, n :: stack, sub =>
    if (sub n).isSome then g.graphForLoop s k stack sub
    else match g.ruleFor s n with
      | .error e => .error e
      | .ok r => g.graphForLoop s k ((g.deps r).reverse ++ stack) (setAll sub (g.outs r) r)

/-- Enough rounds for the loop. -/
def Graph.rounds {V : Type} (g : Graph V) (targets : List Name) : Nat :=
  targets.length + (g.rules.map (fun r => r.deps.length)).sum + 1

/-- `Graph.graph_for` (`graph.py` 56-71). `targets` is the set of targets in the order in which it is iterated, reversed. -/
def Graph.graphFor {V : Type} (g : Graph V) (s : Source V) (targets : List Name) : Except Err (Name → Option Ref) :=
  g.graphForLoop s (g.rounds targets) targets (fun _ => none)

/-- `rule_sequence` (`graph.py` 112-120): the rules in the order of the nodes, each once. `used` are the rules already used. -/
def ruleSequence (sub : Name → Option Ref) : List Name → List Ref → List Ref
  | [], _ => []
  | n :: ns, used =>
    match sub n with
    | none => ruleSequence sub ns used
    | some r => if r ∈ used then ruleSequence sub ns used else r :: ruleSequence sub ns (r :: used)

/-- `Options` (`options.py` 8-18) without `rename_dims` and `quiet`. -/
structure Options where
  keepAliases : Bool
  keepIntermediate : Bool
  keepInputs : Bool

/-- `_count_usages` (`coord_table.py` 50-56): names that are not used are not in the dict. -/
def Graph.countUsages {V : Type} (g : Graph V) (rules : List Ref) (n : Name) : Option Int :=
  let k := (rules.flatMap g.deps).count n
  if k = 0 then none else some k

/-- Names of outputs of the `FetchRule`s (`rule.py` 205-211). -/
def Graph.inputNames {V : Type} (g : Graph V) (rules : List Ref) : List Name :=
  (rules.filter (fun r => match r with | .fetch _ => true | .user _ => false)).flatMap g.outs

/-- Whether a rule object is a `RenameRule`. -/
def Graph.isRename {V : Type} (g : Graph V) : Ref → Bool
  | .fetch _ => false
  | .user i => match g.rules[i]? with
    | some (.rename _ _) => true
    | _ => false

/-- Names of outputs of the `RenameRule`s (`rule.py` 205-211). -/
def Graph.aliasNames {V : Type} (g : Graph V) (rules : List Ref) : List Name := (rules.filter g.isRename).flatMap g.outs

/-- `_apply_keep_options` (`coord_table.py` 59-82) and the lines for targets in `CoordTable.__init__` (`coord_table.py` 21-28), then `total_usages` (43-44). -/
def Graph.totalUsages {V : Type} (g : Graph V) (rules : List Ref) (targets : List Name) (o : Options) (n : Name) : Int :=
  let inputs := (g.inputNames rules).filter (fun m => m ∉ targets)
  let aliases := (g.aliasNames rules).filter (fun m => m ∉ targets)
  let allInputs := rules.flatMap g.deps
  let u0 := g.countUsages rules
  let u1 := if o.keepInputs then fun m => if m ∈ inputs then some (-1) else u0 m else u0
  let u2 := if o.keepIntermediate then fun m => if m ∈ allInputs ∧ m ∉ inputs ∧ m ∉ aliases then some (-1) else u1 m else u1
  let u3 := if o.keepAliases then fun m => if m ∈ aliases then some (-1) else u2 m else u2
  let u4 := fun m => if m ∈ targets then some (-1) else u3 m
  (u4 n).getD (-1)

/-- `Coord` (`coord.py` 11-34). -/
structure Coord (V : Type) where
  dense : Option V
  event : Option V
  aligned : Bool
  usages : Int

/-- The dict of a `CoordTable`. -/
abbrev Table (V : Type) := Name → Option (Coord V)

/-- `CoordTable.add` (`coord_table.py` 30-31). -/
def Table.add {V : Type} (t : Table V) (usages : Name → Int) (n : Name) (c : Coord V) : Table V :=
  fun m => if m = n then some { c with usages := usages n } else t m

/-- `CoordTable.consume` (`coord_table.py` 33-41) with `Coord.use` (`coord.py` 24-26): the coord handed out and the new table. -/
def Table.consume {V : Type} (t : Table V) (n : Name) : Except Err (Coord V × Table V) :=
  match t n with
  | none => .error .notFound
  | some c =>
    let c' : Coord V := { c with aligned := false, usages := if c.usages > 0 then c.usages - 1 else c.usages }
    .ok (c', fun m => if m = n then some (if c'.usages = 0 then { c' with dense := none, event := none } else c') else t m)

/-- Consuming several names in order (`rule.py` 126-128, 103-105). -/
def Table.consumeAll {V : Type} (t : Table V) : List Name → Except Err (List (Coord V) × Table V)
  | [] => .ok ([], t)
  | n :: ns =>
    match t.consume n with
    | .error e => .error e
    | .ok (c, t') =>
      match Table.consumeAll t' ns with
      | .error e => .error e
      | .ok (cs, t'') => .ok (c :: cs, t'')

/-- `ComputeRule._to_dict` (`rule.py` 177-185). -/
def toDict {V : Type} (outs : List Name) : Output V → Except Err (List (Name × V))
  | .dict l => .ok l
  | .single v => match outs with
    | [n] => .ok [(n, v)]
    | _ => .error .dtype

/-- Arguments of a kernel: a missing argument is passed as `None`, which is modelled as an exception. -/
def argList {V : Type} : List (Option V) → Except Err (List V)
  | [] => .ok []
  | none :: _ => .error .dtype
  | some v :: l => match argList l with
    | .error e => .error e
    | .ok vs => .ok (v :: vs)

/-- Calling the kernel and converting the result to a dict (`rule.py` 142-143, 154). -/
def call {V : Type} (outs : List Name) (func : List V → Except Err (Output V)) (args : List (Option V)) : Except Err (List (Name × V)) :=
  match argList args with
  | .error e => .error e
  | .ok vs => match func vs with
    | .error e => .error e
    | .ok o => toDict outs o

/-- `_compute_with_events` (`rule.py` 149-165). -/
def computeWithEvents {V : Type} (binned : V → Bool) (outs : List Name) (func : List V → Except Err (Output V)) (inputs : List (Coord V)) :
    Except Err (List (Name × Coord V)) :=
  match call outs func (inputs.map (fun c => if c.event.isSome then c.event else c.dense)) with
  | .error e => .error e
  | .ok d => .ok (d.map (fun p => (p.1, ⟨if binned p.2 then none else some p.2, if binned p.2 then some p.2 else none, true, -1⟩)))

/-- `_compute_pure_dense` (`rule.py` 141-147). -/
def computePureDense {V : Type} (outs : List Name) (func : List V → Except Err (Output V)) (inputs : List (Coord V)) :
    Except Err (List (Name × Coord V)) :=
  match call outs func (inputs.map (·.dense)) with
  | .error e => .error e
  | .ok d => .ok (d.map (fun p => (p.1, ⟨some p.2, none, true, -1⟩)))

/-- `outputs[name].dense = coord.dense` for all dense outputs (`rule.py` 137-138). -/
def overrideDense {V : Type} : List (Name × Coord V) → List (Name × Coord V) → Except Err (List (Name × Coord V))
  | outputs, [] => .ok outputs
  | outputs, (n, c) :: ds =>
    if n ∈ outputs.map Prod.fst then overrideDense (outputs.map (fun p => if p.1 = n then (p.1, { p.2 with dense := c.dense }) else p)) ds
    else .error .notFound

/-- `_without_unrequested` (`rule.py` 167-175). -/
def withoutUnrequested {V : Type} (outs : List Name) (d : List (Name × Coord V)) : Except Err (List (Name × Coord V)) :=
  if ∀ n ∈ outs, n ∈ d.map Prod.fst then .ok (outs.filterMap (fun n => (d.lookup n).map (fun c => (n, c)))) else .error .dtype

/-- `ComputeRule.__call__` (`rule.py` 125-139) after consuming the inputs. -/
def computeOutputs {V : Type} (binned : V → Bool) (outs : List Name) (func : List V → Except Err (Output V)) (inputs : List (Coord V)) :
    Except Err (List (Name × Coord V)) :=
  let ev := inputs.any (fun c => c.event.isSome)
  let dn := inputs.all (fun c => c.dense.isSome)
  if ev then
    match computeWithEvents binned outs func inputs with
    | .error e => .error e
    | .ok outputs =>
      if dn then
        match computePureDense outs func inputs with
        | .error e => .error e
        | .ok dense => match overrideDense outputs dense with
          | .error e => .error e
          | .ok outputs => withoutUnrequested outs outputs
      else withoutUnrequested outs outputs
  else if dn then
    match computePureDense outs func inputs with
    | .error e => .error e
    | .ok dense => withoutUnrequested outs dense
  else .error .dtype

/-- Calling a rule (`rule.py` 73-81, 100-105, 125-139): the outputs and the new table. -/
def Graph.callRule {V : Type} (g : Graph V) (binned : V → Bool) (s : Source V) (t : Table V) : Ref → Except Err (List (Name × Coord V) × Table V)
  | .fetch n => .ok ([(n, ⟨s.coords n, s.event n, true, -1⟩)], t)
  | .user i =>
    match g.rules[i]? with
    | none => .error .ub
    | some (.rename outs inName) =>
      match t.consumeAll (outs.map (fun _ => inName)) with
      | .error e => .error e
      | .ok (cs, t') => .ok (outs.zip cs, t')
    | some (.compute outs args func) =>
      match t.consumeAll args with
      | .error e => .error e
      | .ok (cs, t') =>
        match computeOutputs binned outs func cs with
        | .error e => .error e
        | .ok l => .ok (l, t')

/-- `Coord.has_dim` (`coord.py` 32-33); without any data `None.dims` is an `AttributeError`. -/
def Coord.hasDim {V : Type} (hasDim : V → Name → Bool) (c : Coord V) (d : Name) : Except Err Bool :=
  match c.dense with
  | some v => .ok (hasDim v d)
  | none => match c.event with
    | some v => .ok (hasDim v d)
    | none => .error .dtype

/-- Inner loop of `_transform_data_array` (`transform_coords.py` 188-194): adding the outputs of a rule and collecting dim-coords. -/
def addOutputs {V : Type} (hasDim : V → Name → Bool) (s : Source V) (usages : Name → Int) :
    List (Name × Coord V) → Table V → List Name → Except Err (Table V × List Name)
  | [], t, dc => .ok (t, dc)
  | (n, c) :: l, t, dc =>
    let t' := t.add usages n c
    if n ∈ s.dims then
      match c.hasDim hasDim n with
      | .error e => .error e
      | .ok b => addOutputs hasDim s usages l t' (if b then n :: dc else dc)
    else addOutputs hasDim s usages l t' dc

/-- Outer loop (`transform_coords.py` 187-194). -/
def Graph.runRules {V : Type} (g : Graph V) (binned : V → Bool) (hasDim : V → Name → Bool) (s : Source V) (usages : Name → Int) :
    List Ref → Table V → List Name → Except Err (Table V × List Name)
  | [], t, dc => .ok (t, dc)
  | r :: rs, t, dc =>
    match g.callRule binned s t r with
    | .error e => .error e
    | .ok (outs, t') =>
      match addOutputs hasDim s usages outs t' dc with
      | .error e => .error e
      | .ok (t'', dc') => g.runRules binned hasDim s usages rs t'' dc'

/-- Coords with their alignment flags of a data array and of its events. -/
structure Result (V : Type) where
  coords : Name → Option (V × Bool)
  events : Name → Option (V × Bool)

/-- `_store_results` and `_store_coord` (`transform_coords.py` 271-304) for one name. The input's flags `align` are kept for coords that are not in the table.
A mismatch of bin indices is handled by a copy, which changes nothing here. -/
def store {V : Type} (s : Source V) (align : Name → Bool) (targets : List Name) (t : Table V) : Result V where
  coords n := match t n with
    | none => (s.coords n).map (·, align n)
    | some c => if c.usages = 0 then none
      else match c.dense with
        | some v => some (v, if n ∈ targets then true else c.aligned)
        | none => (s.coords n).map (·, align n)
  events n := match t n with
    | none => (s.event n).map (·, align n)
    | some c => if c.usages = 0 then none
      else match c.event with
        | some v => some (v, if n ∈ targets then true else c.aligned)
        | none => (s.event n).map (·, align n)

/-- `_transform_data_array` (`transform_coords.py` 181-203) without renaming dims, for a given topological order of the nodes. -/
def Graph.transform {V : Type} (g : Graph V) (binned : V → Bool) (hasDim : V → Name → Bool) (s : Source V) (align : Name → Bool) (targets : List Name)
    (o : Options) (order : List Name) : Except Err (Result V) :=
  match g.graphFor s targets with
  | .error e => .error e
  | .ok sub =>
    let rules := ruleSequence sub order []
    match g.runRules binned hasDim s (g.totalUsages rules targets o) rules (fun _ => none) [] with
    | .error e => .error e
    | .ok (t, _) => .ok (store s align targets t)

end Scipp.TransformCoords
