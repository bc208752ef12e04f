import Verif.Model.Transform
import Mathlib.Algebra.Group.Defs
/-
Model of cumulative sums (`lib/variable/cumulative.cpp`, `lib/core/include/scipp/core/element/cumulative.h`).

`accumulate_in_place` with a non-const second operand does not use threads (`lib/variable/include/scipp/variable/accumulate.h` 116-118) and
calls the element operation for one pair of elements after the other, in the order established by C11 and C13: row-major order of the
coordinates, or bin after bin. Memory is a function from addresses to values; `sum` is the memory of `cumulative`, `out` that of the
result. Rounding is not modelled.
-/
namespace Scipp
variable {V : Type}

/-- Change the value at one address. -/
def memSet (m : Nat → V) (a : Nat) (v : V) : Nat → V := fun b => if b = a then v else m b

/-- `inclusive_scan` (`cumulative.h` 24-30): `sum += x; x = sum`. -/
def inclusiveScan [Add V] (st : (Nat → V) × (Nat → V)) (step : Nat × Nat) : (Nat → V) × (Nat → V) :=
  let sum := memSet st.1 step.1 (st.1 step.1 + st.2 step.2)
  (sum, memSet st.2 step.2 (sum step.1))

/-- `exclusive_scan` (`cumulative.h` 16-22): `sum += x; x = sum - x`. -/
def exclusiveScanStep [Add V] [Sub V] (st : (Nat → V) × (Nat → V)) (step : Nat × Nat) : (Nat → V) × (Nat → V) :=
  let sum := memSet st.1 step.1 (st.1 step.1 + st.2 step.2)
  (sum, memSet st.2 step.2 (sum step.1 - st.2 step.2))

/-- `enum class CumSumMode` (`lib/variable/include/scipp/variable/cumulative.h` 12). -/
inductive CumSumMode where
  | exclusive
  | inclusive

/-- `accumulate_in_place(cumulative, out, ...)` over the visited pairs of addresses, starting from zeros in
`cumulative` (`cumulative.cpp` 24-33, 37-45, 49-59). -/
def scanAll [Add V] [Sub V] [Zero V] (mode : CumSumMode) (steps : List (Nat × Nat)) (out : Nat → V) : Nat → V :=
  match mode with
  | .inclusive => (steps.foldl inclusiveScan (fun _ => 0, out)).2
  | .exclusive => (steps.foldl exclusiveScanStep (fun _ => 0, out)).2

/-- The pairs of addresses visited by `cumsum(var, dim, mode)` (`cumulative.cpp` 21-34): `out` has the row-major layout of a copy with
`outer` elements outside, `n` along, and `inner` elements inside `dim`; `cumulative` lacks `dim`. -/
def cumsumSteps (outer n inner : Nat) : List (Nat × Nat) :=
  (List.range (outer * n * inner)).map fun k => (k / (n * inner) * inner + k % inner, k)

/-- `cumsum(var, dim, mode)` (`cumulative.cpp` 21-34). -/
def cumsumDim [Add V] [Sub V] [Zero V] (mode : CumSumMode) (outer n inner : Nat) (x : Nat → V) : Nat → V :=
  if n = 0 then x else scanAll mode (cumsumSteps outer n inner) x

/-- `cumsum(var, mode)` over all dimensions (`cumulative.cpp` 36-46). -/
def cumsumAllDims [Add V] [Sub V] [Zero V] (mode : CumSumMode) (volume : Nat) (x : Nat → V) : Nat → V :=
  scanAll mode ((List.range volume).map fun k => (0, k)) x

/-- `cumsum_bins(var, mode)` (`cumulative.cpp` 48-60) for bins given by ranges of the buffer. -/
def cumsumBins [Add V] [Sub V] [Zero V] (mode : CumSumMode) (bins : List (Nat × Nat)) (x : Nat → V) : Nat → V :=
  scanAll mode (bins.zipIdx.flatMap fun b => (List.range (b.1.2 - b.1.1)).map fun j => (b.2, b.1.1 + j)) x

end Scipp
