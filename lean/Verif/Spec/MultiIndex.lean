import Verif.Model.MultiIndex
/-!
Vocabulary for statements about simultaneous iteration.
-/
namespace Scipp

/-- The dims read first (fastest first), of which all but the last `keep` may be merged,
do not contain the pattern that `flatten_dims` merges wrongly: directly after the innermost
dim (which has a non-zero stride for some operand), a dim of extent other than 1 in which
*all* operands have stride zero. -/
def NoZeroRun {N : Nat} (keep : Nat) : List (Int × Vec N) → Prop
  | [] => True
  | p :: rest => p.2 = 0 ∨ ∀ q ∈ (rest.take (rest.length - keep)).takeWhile (fun q => q.2 = 0), q.1 = 1

end Scipp
