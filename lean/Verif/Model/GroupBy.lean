import Verif.Model.BinIndex
import Verif.Model.View
/-
Model of `lib/dataset/groupby.cpp`: `MakeGroups`, `MakeBinGroups` and `reduce_`.
-/
namespace Scipp.GroupBy
variable {α : Type} [LinearOrder α]

/-- A value of a key coord. NaN values differ in their representation (sign and payload), which matters for their hash. For keys that are not
floating-point numbers there is no NaN. -/
inductive Key (α : Type) where
  | num (x : α)
  | nan (bits : Nat)
  deriving DecidableEq

/-- `nan_sensitive_equal` (`groupby.cpp` 229-236). -/
def keyEq : Key α → Key α → Bool
  | .num x, .num y => decide (x = y)
  | .nan _, .nan _ => true
  | _, _ => false

/-- `NanSensitiveLess` (`groupby.cpp` 216-227). -/
def keyLess : Key α → Key α → Bool
  | .num _, .nan _ => true
  | .nan _, .nan _ => false
  | .num x, .num y => decide (x < y)
  | .nan _, .num _ => false

/-- The nested loops of `MakeGroups::apply` (`groupby.cpp` 249-262) without the map: the runs of equal values, with begin and end. `runsFrom` is within
a run of `value` starting at `begin`, with the iterator at position `i`. -/
def runsFrom (begin : Int) (value : Key α) : Int → List (Key α) → List (Key α × (Int × Int))
  | i, [] => [(value, (begin, i))]
  | i, v :: vs => if keyEq v value then runsFrom begin value (i + 1) vs else (value, (begin, i)) :: runsFrom i v (i + 1) vs

@[inherit_doc runsFrom]
def runs : List (Key α) → List (Key α × (Int × Int))
  | [] => []
  | v :: vs => runsFrom 0 v 1 vs

/-- `std::unordered_map` with `std::hash` and `nan_sensitive_equal` (`groupby.cpp` 245-247). -/
abbrev GroupMap (α : Type) := List (Key α × List (Int × Int))

/-- Does lookup of `k` find an entry with key `e`: the keys must be in the same bucket, and compare equal. `hash` is `std::hash`. -/
def found (hash : Key α → Nat) (k e : Key α) : Bool := decide (hash e = hash k) && keyEq e k

/-- `indices[group_value].emplace_back(dim, begin, i)` (`groupby.cpp` 261). -/
def GroupMap.emplace (hash : Key α → Nat) (k : Key α) (r : Int × Int) : GroupMap α → GroupMap α
  | [] => [(k, [r])]
  | e :: m => if found hash k e.1 then (e.1, e.2 ++ [r]) :: m else e :: GroupMap.emplace hash k r m

/-- `indices.at(k)` (`groupby.cpp` 275), throwing `std::out_of_range`. -/
def GroupMap.at (hash : Key α → Nat) (m : GroupMap α) (k : Key α) : Except Err (List (Int × Int)) :=
  match m.find? (fun e => found hash k e.1) with
  | some e => .ok e.2
  | none => .error .runtime

/-- `core::parallel::parallel_sort`, see `Scipp.Bins.Sorter`. -/
abbrev KeySorter (α : Type) := (Key α → Key α → Bool) → List (Key α) → List (Key α)

/-- `MakeGroups::apply` (`groupby.cpp` 239-281): the labels of the groups and the ranges of each group. The order of iteration of the map is not specified;
it only matters as input of the sort. -/
def makeGroups (hash : Key α → Nat) (sorter : KeySorter α) (values : List (Key α)) :
    Except Err (List (Key α) × List (List (Int × Int))) := do
  let indices := (runs values).foldl (fun m p => GroupMap.emplace hash p.1 p.2 m) []
  let keys := sorter keyLess (indices.map Prod.fst)
  let groups ← keys.mapM (GroupMap.at hash indices)
  return (keys, groups)

/-- A run that is being extended by the inner loop of `MakeBinGroups::apply` (`groupby.cpp` 303-306): the bin, its edges, and the begin. -/
structure Run (α : Type) where
  bin : Nat
  left : α
  right : α
  begin : Int

/-- Start of an iteration of the outer loop (`groupby.cpp` 299-303) at position `i`: the bin of the value, if any. -/
def startRun (edges : List α) (v : Option α) (i : Int) : Option (Run α) :=
  let right := upperBound edges v
  if right ≠ edges.length ∧ right ≠ 0 then
    match edges[right - 1]?, edges[right]? with
    | some l, some r => some ⟨right - 1, l, r, i⟩
    | _, _ => none
  else none

/-- Condition of the inner loop (`groupby.cpp` 304-305); false for NaN. -/
def Run.extends (r : Run α) : Option α → Bool
  | none => false
  | some x => decide (r.left ≤ x) && decide (x < r.right)

/-- The nested loops of `MakeBinGroups::apply` (`groupby.cpp` 296-309): the ranges in the order in which they are added to the groups, with
their group. -/
def binRuns (edges : List α) : Option (Run α) → Int → List (Option α) → List (Nat × (Int × Int))
  | none, _, [] => []
  | some r, i, [] => [(r.bin, (r.begin, i))]
  | none, i, v :: vs => binRuns edges (startRun edges v i) (i + 1) vs
  | some r, i, v :: vs =>
    if r.extends v then binRuns edges (some r) (i + 1) vs
    else (r.bin, (r.begin, i)) :: binRuns edges (startRun edges v i) (i + 1) vs

/-- `MakeBinGroups::apply` (`groupby.cpp` 283-312): the ranges of every group. NaN edges are not modelled; with no edges the vector of groups has size
`-1`, which throws. Dims and unit of the bins are not modelled. -/
def makeBinGroups (edges : List α) (values : List (Option α)) : Except Err (List (List (Int × Int))) :=
  if ¬ edges.Pairwise (· ≤ ·) then .error .binEdge
  else if edges.length = 0 then .error .invalidArgument
  else
    let rs := binRuns edges none 0 values
    .ok ((List.range (edges.length - 1)).map (fun g => (rs.filter (fun p => p.1 = g)).map Prod.snd))

variable {M : Type}

/-- The slice of the data for a range, with masked elements replaced (`groupby.cpp` 84-89). -/
def maskedSlice (replacement : M) (mask : Option (List Bool)) (data : List M) (r : Int × Int) : List M :=
  let slice := fun {β : Type} (l : List β) => (l.drop r.1.toNat).take (r.2 - r.1).toNat
  match mask with
  | none => slice data
  | some m => List.zipWith (fun b x => if b then replacement else x) (slice m) (slice data)

/-- `reduce_` (`groupby.cpp` 71-93): every group starts with the fill value (`makeReductionOutput`, 55-68) and accumulates its slices with
`op`. Data along the reduction dim, which is the dim of the key; `M` is the type of a slice at one position. -/
def reduceGroups (op : M → M → M) (fill : M) (mask : Option (List Bool)) (data : List M) (groups : List (List (Int × Int))) : List M :=
  groups.map (fun ranges => ranges.foldl (fun out r => (maskedSlice fill mask data r).foldl op out) fill)

end Scipp.GroupBy
