import Verif.Model.DenseBin
import Verif.Spec.MakeBinned

/-! # What it means to bin dense data with several dims -/

namespace Scipp.MakeBinned

/-- A position of an element. -/
def Dense.Inside (x : Dense) (q : Pos) : Prop := (∀ d ∈ x.dims, q d.1 < d.2) ∧ ∀ d, d ∉ x.dims.map (·.1) → q d = 0

/-- Dims and coords have names of their own, and coords depend only on their dims. -/
structure Dense.WF (x : Dense) : Prop where
  dims : (x.dims.map (·.1)).Nodup
  coords : (x.coords.map (·.1)).Nodup
  loc : ∀ c ∈ x.coords, c.2.Local

/-- All keys with a coord that has dims have a coord with the inner dim `op`, and there is one. -/
def Dense.Along (x : Dense) (keys : List Key) (op : Dim) : Prop :=
  (∃ k ∈ keys, ∃ c n, (k.dim, c) ∈ x.coords ∧ c.dims.getLast? = some (op, n)) ∧
  ∀ k ∈ keys, ∀ c d, (k.dim, c) ∈ x.coords → c.dims.getLast? = some d → d.1 = op

/-- The element at `q` belongs into the output bin at `p`: the positions agree along all dims which remain, and the elements of the coords are in the
bins given by the keys. -/
def Dense.Belongs (x : Dense) (keys : List Key) (gone : List Dim) (p q : Pos) : Prop :=
  (∀ d ∈ x.dims, d.1 ∉ gone → (∀ k ∈ keys, k.dim ≠ d.1) → q d.1 = p d.1) ∧
  ∀ k ∈ keys, ∃ c, (k.dim, c) ∈ x.coords ∧ k.Holds (p k.dim) (c.val q)

/-- The event is the element at `q`, with the elements of these coords. -/
def Dense.IsEvent (x : Dense) (names : List Dim) (e : Event) (q : Pos) : Prop :=
  e.weight = x.weight q ∧ ∀ n ∈ names, ∃ c, (n, c) ∈ x.coords ∧ e.coord n = c.val q

end Scipp.MakeBinned
