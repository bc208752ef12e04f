import Verif.Model.CombineBins

/-! # What it means to combine bins -/

namespace Scipp.CombineBins

variable {E : Type}

/-- The bin at this position is not to be used: a mask that depends on one of the dims which disappear is set. -/
def Hidden (masks : List Mask) (erase : List Dim) (c : Pos) : Prop :=
  ∃ m ∈ masks, (∃ d ∈ m.dims, d ∈ erase) ∧ m.masked c = true

/-- A mask does not depend on the indices of other dims than its own. -/
def Mask.Local (m : Mask) : Prop := ∀ c c' : Pos, (∀ d ∈ m.dims, c d = c' d) → m.masked c = m.masked c'

/-- The events of the bins at the given positions which are not hidden and satisfy `p`, one bin after the other. -/
noncomputable def gather (b : Binned E) (masks : List Mask) (erase : List Dim) (p : Pos → Prop) (cs : List Pos) : List E :=
  open Classical in
  cs.flatMap (fun c => if ¬ Hidden masks erase c ∧ p c then b.content c else [])

/-- The dims which disappear, in the given order. -/
def erased (b : Binned E) (erase : List Dim) : Shape := erase.map (fun d => (d, sizeOf b.shape d))

/-- The dims which disappear, in the order of the data. -/
def erasedInOrder (b : Binned E) (erase : List Dim) : Shape := b.shape.filter (fun p => erase.contains p.1)

/-- The other dims. -/
def kept (b : Binned E) (erase : List Dim) : Shape := b.shape.filter (fun p => !erase.contains p.1)

end Scipp.CombineBins
