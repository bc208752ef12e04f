import Verif.Model.MakeBinned

/-! # What it means to bin data along some coords -/

namespace Scipp.MakeBinned

/-- The value belongs to bin or group `i`: it lies between the edges, or it is the label of the group. -/
def Key.Holds (k : Key) (i : Nat) (v : ℚ) : Prop :=
  i < k.size ∧ if k.edges then k.values.getD i 0 ≤ v ∧ v < k.values.getD (i + 1) 0 else k.values.getD i 0 = v

/-- The value of a coord for an event in the bin at `p`: the coord of the events, or if there is none the coord of the bins. -/
def Value (x : Arr) (n : Dim) (p : Pos) (e : Event) (v : ℚ) : Prop :=
  (n ∈ x.eventCoords ∧ v = e.coord n) ∨ (n ∉ x.eventCoords ∧ ∃ c, (n, c) ∈ x.coords ∧ v = c.val p)

/-- The event belongs into the output bin at `p`: its bin is at that position along all dims which remain, and its coords are in the bins given
by the keys. -/
def Belongs (x : Arr) (keys : List Key) (erase : List Dim) (p : Pos) (it : Pos × Event) : Prop :=
  (∀ d ∈ x.dims, d.1 ∉ erase → (∀ k ∈ keys, k.dim ≠ d.1) → it.1 d.1 = p d.1) ∧
  ∀ k ∈ keys, ∃ v, Value x k.dim it.1 it.2 v ∧ k.Holds (p k.dim) v

/-- The events of the bin at `p`. -/
def contents (x : Arr) (p : Pos) : List Event :=
  (x.items.filter (fun it => ∀ d ∈ x.dims, it.1 d.1 = p d.1)).map (·.2)

/-- The events which belong into the output bin at `p`. -/
noncomputable def expected (x : Arr) (keys : List Key) (erase : List Dim) (p : Pos) : List Event :=
  open Classical in (x.items.filter (fun it => Belongs x keys erase p it)).map (·.2)

/-- Every coord has a name of its own. -/
def Named (x : Arr) : Prop := (x.coords.map (·.1)).Nodup

/-- The elements of the coord do not depend on other dims than its own. -/
def Coord.Local (c : Coord) : Prop := ∀ p q : Pos, (∀ d ∈ c.dims, p d.1 = q d.1) → c.val p = c.val q

/-- The coord does not depend on any of these dims. -/
def Coord.Free (c : Coord) (ds : List Dim) : Prop := ∀ d ∈ c.dims, d.1 ∉ ds

end Scipp.MakeBinned
