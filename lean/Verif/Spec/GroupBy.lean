import Verif.Model.GroupBy
import Verif.Model.Transform
/-!
Vocabulary for statements about `groupby`.
-/
namespace Scipp.GroupBy
variable {α : Type} [LinearOrder α]

/-- All positions in ranges, in their order. -/
def positions (ranges : List (Int × Int)) : List Int := ranges.flatMap (fun r => intRange r.1 r.2)

/-- Two values belong to the same group: equal numbers, or both NaN. -/
def Same : Key α → Key α → Prop
  | .num x, .num y => x = y
  | .nan _, .nan _ => True
  | _, _ => False

/-- Strictly ascending: numbers by value, NaN after all numbers. -/
def Before : Key α → Key α → Prop
  | .num x, .num y => x < y
  | .num _, .nan _ => True
  | .nan _, _ => False

instance (a b : Key α) : Decidable (Same a b) := by
  cases a <;> cases b <;> unfold Same <;> infer_instance

instance (a b : Key α) : Decidable (Before a b) := by
  cases a <;> cases b <;> unfold Before <;> infer_instance

/-- The positions of all values belonging to the group of `k`, ascending. -/
def members (values : List (Key α)) (k : Key α) : List Int :=
  ((List.range values.length).filter (fun i => (values[i]?).any (fun v => decide (Same k v)))).map (fun i : Nat => (i : Int))

/-- Contract of a sort algorithm, see `Scipp.Bins.SorterOk`. -/
def KeySorterOk (sorter : KeySorter α) : Prop :=
  ∀ (lt : Key α → Key α → Bool) (l : List (Key α)),
    (∀ a, lt a a = false) → (∀ a b c, lt a b = true → lt b c = true → lt a c = true) →
    (∀ a b c, lt a b = false → lt b a = false → lt b c = false → lt c b = false → lt a c = false ∧ lt c a = false) →
    (sorter lt l).Perm l ∧ (sorter lt l).Pairwise (fun a b => lt b a = false)

/-- The value `v` (`none` is NaN) is in bin `g`: `edge[g] <= v < edge[g+1]`. -/
def InBin (edges : List α) (g : Nat) (v : Option α) : Prop :=
  ∃ x l r, v = some x ∧ edges[g]? = some l ∧ edges[g + 1]? = some r ∧ l ≤ x ∧ x < r

variable {M : Type}

/-- The data with masked elements replaced. -/
def maskedData (replacement : M) (mask : Option (List Bool)) (data : List M) : List M :=
  match mask with
  | none => data
  | some m => List.zipWith (fun b x => if b then replacement else x) m data

end Scipp.GroupBy
