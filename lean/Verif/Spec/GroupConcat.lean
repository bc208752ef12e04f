import Verif.Model.GroupConcat
import Verif.Spec.BinTable
import Verif.Spec.BinMeta
import Verif.Spec.GroupBy
/-
What concatenating the bins of an array, or of its groups, is to do, for C98.
-/
namespace Scipp.GroupConcat
open BinTable Spec
variable {α : Type} [LinearOrder α] {γ : Type} [DecidableEq γ] {E : Type}

/-- Edges are sorted and there are at least two, with a usable guess if they are taken to be a linspace; labels are different; an existing dimension is one of those with the extents `inner`. -/
def AxisOk (inner : List Nat) : Axis α γ Pos → Prop
  | .bin edges linspace guess _ => Ascending edges ∧ 2 ≤ edges.length ∧ (linspace = true → GuessOk edges guess)
  | .group labels _ => labels.Nodup
  | .groupInt labels _ => labels.Nodup
  | .existing n position => ∃ k, inner[k]? = some n ∧ ∀ p : Pos, position p = p.2.getD k 0

/-- The events of the bins for which a condition holds, in the order of the bins; masked bins have none. -/
def eventsOf (bins : List Pos) (masked : Pos → Bool) (events : Pos → List E) (cond : Pos → Bool) : List E :=
  bins.flatMap fun p => if cond p && !masked p then events p else []

/-- The events of the bins of a 1-D array at the given positions; masked bins have none. -/
def eventsAt (masked : Pos → Bool) (events : Pos → List E) (positions : List Int) : List E :=
  positions.flatMap fun i => if masked ([], [i.toNat]) then [] else events ([], [i.toNat])

/-- The label is a number. -/
def IsNum : GroupBy.Key α → Bool
  | .num _ => true
  | .nan _ => false

/-! ### Metadata -/
open BinMeta

/-- The array has a coord or attr with the name of the dimension. -/
def HasCoord (x : Input) (d : Dim) : Prop := d ∈ (x.attrs ++ x.coords).map Prod.fst

/-- The coord (or attr) with the name of the dimension is not 1-D and depends on the dimension that is reduced: the bins along the dimension are joined into a single one. -/
def Joined (x : Input) (red d : Dim) : Prop := ∃ c, lookupEntry (x.attrs ++ x.coords) d = some c ∧ c.dims.length ≠ 1 ∧ red ∈ Sizes.labels c.dims

/-- What the output has no place for: what depends on the dimension of the events, the one that is reduced, the one of the key, or on one with joined bins. -/
def Dropped (x : Input) (keys : List Entry) (red : Dim) (e : Entry) : Prop :=
  DependsOn e x.bufDim ∨ DependsOn e red ∨ (∃ c ∈ keys, DependsOn e (dimOf c)) ∨ ∃ d ∈ Sizes.labels x.dims, Joined x red d ∧ DependsOn e d

end Scipp.GroupConcat
