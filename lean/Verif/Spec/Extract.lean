import Verif.Model.Extract
import Verif.Spec.Bins
/-!
Vocabulary for statements about boolean indexing and sorting.
-/
namespace Scipp.Bins
variable {V : Type}

/-- A data array: a table whose columns depend on the dim like the data, as bin edges, or not at all; every name occurs once. -/
structure Table.IsDataArray (t : Table V) : Prop where
  keys : (t.cols.map Prod.fst).Nodup
  rows : ∀ k rows, (k, Col.along rows) ∈ t.cols → rows.length = t.data.length ∨ rows.length = t.data.length + 1

/-- The slice of a data array at position `i` without bin edges along the dim: data and the values of all other coords, masks and
attrs. -/
def Table.rowAt (t : Table V) (i : Nat) : Event V :=
  ⟨t.data[i]?, fun k => match lookupEntry t.cols k with
    | some (.along rows) => if rows.length = t.data.length then rows[i]? else none
    | some (.fixed v) => some v
    | none => none⟩

/-- All rows of a table. -/
def Table.rowList (t : Table V) : List (Event V) := (List.range t.data.length).map t.rowAt

variable {α : Type} [LinearOrder α]

/-- Ascending order of keys: numbers by value, then NaN (`none`). -/
def KeyLe : Option α → Option α → Prop
  | _, none => True
  | none, some _ => False
  | some x, some y => x ≤ y

/-- Contract of a sort algorithm: if the comparison is a strict weak ordering, the result is a permutation of the input in which
no element compares less than an earlier one. The order of equivalent elements is not specified. -/
def SorterOk (sorter : Sorter α) : Prop :=
  ∀ (lt : Option α × Nat → Option α × Nat → Bool) (l : List (Option α × Nat)),
    (∀ a, lt a a = false) → (∀ a b c, lt a b = true → lt b c = true → lt a c = true) →
    (∀ a b c, lt a b = false → lt b a = false → lt b c = false → lt c b = false → lt a c = false ∧ lt c a = false) →
    (sorter lt l).Perm l ∧ (sorter lt l).Pairwise (fun a b => lt b a = false)

end Scipp.Bins
