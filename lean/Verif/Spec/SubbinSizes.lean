import Verif.Model.SubbinSizes
/-!
A list of sub-bin sizes denotes a function from positions to sizes that is zero almost everywhere.
-/
namespace Scipp.SubbinSizes

/-- The size at position `p`, zero where nothing is stored. -/
def val (s : SubbinSizes) (p : Int) : Int := if s.offset ≤ p then s.sizes.getD (p - s.offset).toNat 0 else 0

/-- First position behind the stored sizes. -/
def stop (s : SubbinSizes) : Int := s.offset + s.sizes.length

/-- Total of the sizes at positions `from', from' + 1, …` below `from' + n`. -/
def total (f : Int → Int) (from' : Int) (n : Nat) : Int := ((List.range n).map fun (i : Nat) => f (from' + i)).sum

end Scipp.SubbinSizes
