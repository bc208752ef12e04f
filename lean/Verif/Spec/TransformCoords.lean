import Verif.Model.TransformCoords
/-!
Vocabulary for statements about coordinate transformations.
-/
namespace Scipp.TransformCoords
variable {V : Type}

/-- The rule with index `i` computes `n`. -/
def Graph.Provides (g : Graph V) (i : Nat) (n : Name) : Prop := ∃ r, g.rules[i]? = some r ∧ n ∈ r.outs

/-- Names needed for the targets: the targets, and the inputs of rules for names that are needed and not in the input. -/
inductive Graph.Needed (g : Graph V) (s : Source V) (targets : List Name) : Name → Prop
  | target {n : Name} : n ∈ targets → Graph.Needed g s targets n
  | dep {n d : Name} {i : Nat} {r : Rule V} : Graph.Needed g s targets n → s.has n = false → g.rules[i]? = some r → n ∈ r.outs → d ∈ r.deps → Graph.Needed g s targets d

/-- The rule with index `i` is used: one of its outputs is needed and not in the input. -/
def Graph.Used (g : Graph V) (s : Source V) (targets : List Name) (i : Nat) : Prop :=
  ∃ m, g.Needed s targets m ∧ s.has m = false ∧ g.Provides i m

/-- The part of the graph needed for the targets: outputs of rules that are used, and other inputs that are needed. -/
def Graph.IsSubgraph (g : Graph V) (s : Source V) (targets : List Name) (sub : Name → Option Ref) : Prop :=
  (∀ n i, sub n = some (.user i) ↔ g.Used s targets i ∧ g.Provides i n) ∧
  (∀ n m, sub n = some (.fetch m) ↔ m = n ∧ g.Needed s targets n ∧ s.has n = true ∧ ∀ i, g.Used s targets i → ¬ g.Provides i n)

/-- An order in which every node comes after the nodes it depends on (what `graphlib.TopologicalSorter.static_order` promises). -/
def Graph.Topological (g : Graph V) (sub : Name → Option Ref) (order : List Name) : Prop :=
  order.Nodup ∧ (∀ n, n ∈ order ↔ (sub n).isSome) ∧
  ∀ pre n post r, order = pre ++ n :: post → sub n = some r → ∀ d ∈ g.deps r, d ∈ pre

/-- A coord: for bins or dense data, and for events. -/
structure Val (V : Type) where
  dense : Option V
  event : Option V

/-- The kernel returns the dict `d` for the given arguments, or the single value in it. -/
def KernelDict (outs : List Name) (func : List V → Except Err (Output V)) (args : List V) (d : List (Name × V)) : Prop :=
  func args = .ok (.dict d) ∨ ∃ n v, outs = [n] ∧ func args = .ok (.single v) ∧ d = [(n, v)]

/-- The equations of a rule hold for the coords `env`: an alias is the same coord; a computed coord is what the kernel returns for the coords it depends on. The
kernel is called with coords of events where there are any, and with dense coords if all inputs have them; the latter call determines the dense coord. -/
def Rule.Holds (binned : V → Bool) (env : Name → Val V) : Rule V → Prop
  | .rename outs i => ∀ n ∈ outs, env n = env i
  | .compute outs args func =>
    ((∀ a ∈ args, (env a).event = none) ∧ ∃ vs d, args.map (fun a => (env a).dense) = vs.map some ∧ KernelDict outs func vs d ∧
      ∀ n ∈ outs, ∃ v, (n, v) ∈ d ∧ env n = ⟨some v, none⟩) ∨
    ((∃ a ∈ args, (env a).event ≠ none) ∧ (∃ a ∈ args, (env a).dense = none) ∧ ∃ vs d,
      args.map (fun a => if (env a).event = none then (env a).dense else (env a).event) = vs.map some ∧ KernelDict outs func vs d ∧
      ∀ n ∈ outs, ∃ v, (n, v) ∈ d ∧ env n = if binned v then ⟨none, some v⟩ else ⟨some v, none⟩) ∨
    ((∃ a ∈ args, (env a).event ≠ none) ∧ ∃ vs d ws e,
      args.map (fun a => if (env a).event = none then (env a).dense else (env a).event) = vs.map some ∧ KernelDict outs func vs d ∧
      args.map (fun a => (env a).dense) = ws.map some ∧ KernelDict outs func ws e ∧ (∀ n ∈ e.map Prod.fst, n ∈ d.map Prod.fst) ∧
      ∀ n ∈ outs, ∃ v, (n, v) ∈ d ∧ (env n).event = (if binned v then some v else none) ∧
        ((∃ w, (n, w) ∈ e ∧ (env n).dense = some w) ∨ n ∉ e.map Prod.fst ∧ (env n).dense = if binned v then none else some v))

/-- All equations hold: inputs are those of the source. -/
def Graph.Meaning (g : Graph V) (binned : V → Bool) (s : Source V) (sub : Name → Option Ref) (env : Name → Val V) : Prop :=
  (∀ n m, sub n = some (.fetch m) → env n = ⟨s.coords n, s.event n⟩) ∧
  ∀ n i r, sub n = some (.user i) → g.rules[i]? = some r → r.Holds binned env

/-- What is dropped: names that are not targets, are used by some rule, and whose kind is not kept. -/
def Graph.Dropped (g : Graph V) (targets : List Name) (o : Options) (sub : Name → Option Ref) (n : Name) : Prop :=
  n ∉ targets ∧ (∃ m r, sub m = some r ∧ n ∈ g.deps r) ∧
  ((∃ m, sub n = some (.fetch m) ∧ o.keepInputs = false) ∨
   (∃ i outs k, sub n = some (.user i) ∧ g.rules[i]? = some (.rename outs k) ∧ o.keepAliases = false) ∨
   ∃ i outs args f, sub n = some (.user i) ∧ g.rules[i]? = some (.compute outs args f) ∧ o.keepIntermediate = false)

/-- Alignment of a coord in the result: targets are aligned, coords that are used and aliases are not, others are. -/
def Graph.Aligned (g : Graph V) (targets : List Name) (sub : Name → Option Ref) (n : Name) : Prop :=
  n ∈ targets ∨ (∀ m r, sub m = some r → n ∉ g.deps r) ∧ ∀ i outs k, sub n = some (.user i) → g.rules[i]? ≠ some (.rename outs k)

/-- What the user gets for a name: the values of `env` for names that take part and are not dropped, nothing for names that are dropped, and the input otherwise. -/
def Graph.ResultIs (g : Graph V) (s : Source V) (align : Name → Bool) (targets : List Name) (o : Options) (sub : Name → Option Ref) (env : Name → Val V) (r : Result V) : Prop :=
  ∀ n, (sub n = none → r.coords n = (s.coords n).map (·, align n) ∧ r.events n = (s.event n).map (·, align n)) ∧
    (g.Dropped targets o sub n → r.coords n = none ∧ r.events n = none) ∧
    (sub n ≠ none → ¬ g.Dropped targets o sub n → ∃ a : Bool, (a = true ↔ g.Aligned targets sub n) ∧
      (∀ v, (env n).dense = some v → r.coords n = some (v, a)) ∧ ((env n).dense = none → r.coords n = (s.coords n).map (·, align n)) ∧
      (∀ v, (env n).event = some v → r.events n = some (v, a)) ∧ ((env n).event = none → r.events n = (s.event n).map (·, align n)))

/-- Aliases with several names are of coords that are kept. -/
def Graph.AliasesKept (g : Graph V) (targets : List Name) (o : Options) (sub : Name → Option Ref) : Prop :=
  ∀ outs k, Rule.rename outs k ∈ g.rules → outs.length ≤ 1 ∨ ¬ g.Dropped targets o sub k

/-- Python dicts have distinct keys: what the kernels return. -/
def Graph.Dicts (g : Graph V) : Prop :=
  ∀ outs args f, Rule.compute outs args f ∈ g.rules → ∀ vs d, f vs = .ok (.dict d) → (d.map Prod.fst).Nodup

end Scipp.TransformCoords
