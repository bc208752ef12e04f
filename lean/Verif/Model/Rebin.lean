import Verif.Model.Sizes
import Mathlib.Algebra.Field.Defs
import Mathlib.Order.Defs.LinearOrder
import Mathlib.Algebra.Order.Group.Unbundled.Abs
import Mathlib.Data.Nat.Notation
/-
Model of rebinning (`lib/core/include/scipp/core/element/rebin.h` 20-64 and `rebin_non_inner` in `lib/variable/rebin.cpp` 20-69)
for a single row. Numbers are elements of an ordered field and `none` stands for NaN; infinities and rounding are not modelled.
`less` is `<` for ascending and `>` for descending edges (`rebin.cpp` 76-88). Edges are numbers, not NaN (sorted, `rebin.cpp` 125-130).
-/
namespace Scipp.Rebin
variable {K : Type} [Field K] [LinearOrder K]

/-- Addition with NaN. -/
def nanAdd (a b : Option K) : Option K := a.bind fun x => b.map fun y => x + y

/-- Multiplication with NaN. -/
def nanMul (a b : Option K) : Option K := a.bind fun x => b.map fun y => x * y

/-- Division with NaN for division by zero (0/0 is the only case that arises). -/
def nanDiv (a b : K) : Option K := if b = 0 then none else some (a / b)

/-- `std::min(a, b, less)`. -/
def minBy (less : K → K → Bool) (a b : K) : K := if less b a then b else a

/-- `std::max(a, b, less)`. -/
def maxBy (less : K → K → Bool) (a b : K) : K := if less a b then b else a

/-- `delta / owidth` (`rebin.h` 46-49, `rebin.cpp` 39-43). -/
def scale (less : K → K → Bool) (xnLow xnHigh xoLow xoHigh : K) : Option K :=
  nanDiv |minBy less xnHigh xoHigh - maxBy less xnLow xoLow| |xoHigh - xoLow|

/-- The loop of `rebin` (`rebin.h` 33-63). Every iteration increments one of the indices, thus `fuel` equal to the sum of the numbers of
bins is never exhausted before the loop ends. Indices are within the lists because of the loop condition. -/
def loop (less : K → K → Bool) (xnew xold : List K) (dataOld : List (Option K)) : Nat → Nat → Nat → List (Option K) → List (Option K)
  | 0, _, _, out => out
  | fuel + 1, iold, inew, out =>
    if iold + 1 < xold.length ∧ inew + 1 < xnew.length then
      let xoLow := xold.getD iold 0
      let xoHigh := xold.getD (iold + 1) 0
      let xnLow := xnew.getD inew 0
      let xnHigh := xnew.getD (inew + 1) 0
      if !less xoLow xnHigh then loop less xnew xold dataOld fuel iold (inew + 1) out
      else if !less xnLow xoHigh then loop less xnew xold dataOld fuel (iold + 1) inew out
      else
        let out' := out.modify inew fun v => nanAdd v (nanMul (dataOld.getD iold none) (scale less xnLow xnHigh xoLow xoHigh))
        if less xoHigh xnHigh then loop less xnew xold dataOld fuel (iold + 1) inew out'
        else loop less xnew xold dataOld fuel iold (inew + 1) out'
    else out

/-- `rebin` (`rebin.h` 20-64). -/
def rebin (less : K → K → Bool) (xnew xold : List K) (dataOld : List (Option K)) : List (Option K) :=
  loop less xnew xold dataOld (xold.length + xnew.length) 0 0 (List.replicate (xnew.length - 1) (some 0))

/-- `std::upper_bound(xold, xold + oldSize + 1, x, Less{}) - xold` for sorted `xold`: the number of leading elements for which `less(x, element)` is
false. -/
def upperBound (less : K → K → Bool) (xold : List K) (x : K) : Nat := (xold.takeWhile fun e => !less x e).length

/-- `sum_into(slice, oldT.slice({dim, begin, end}))` (`rebin.cpp` 56). -/
def sumInto (v : Option K) (data : List (Option K)) : Option K := data.foldl nanAdd v

/-- `accumulate_bin` (`rebin.cpp` 45-59) on one element of the slice, with `add_from_bin` (34-44). `out` is the element before. Reading `xold[iold + 1]` outside
the edges is undefined behaviour; it happens if there is a single edge. -/
def accumulateBin (less : K → K → Bool) (xold : List K) (dataOld : List (Option K)) (xnLow xnHigh : K) (out : Option K) :
    Except Err (Option K) :=
  let addFromBin := fun (v : Option K) (iold : Nat) =>
    nanAdd v (nanMul (dataOld.getD iold none) (scale less xnLow xnHigh (xold.getD iold 0) (xold.getD (iold + 1) 0)))
  let begin0 := upperBound less xold xnLow
  let end' := upperBound less xold xnHigh
  if begin0 = xold.length ∨ end' = 0 then .ok out
  else if xold.length ≤ begin0 - 1 + 1 then .error .ub
  else
    let begin' := begin0 - 1
    let v := addFromBin out begin'
    let v := if begin' + 1 < end' - 1 then sumInto v ((dataOld.drop (begin' + 1)).take (end' - 1 - (begin' + 1))) else v
    .ok (if begin' ≠ end' - 1 ∧ end' < xold.length then addFromBin v (end' - 1) else v)

/-- `rebin_non_inner` (`rebin.cpp` 20-69): every new bin separately. -/
def rebinNonInner (less : K → K → Bool) (xnew xold : List K) (dataOld : List (Option K)) : Except Err (List (Option K)) :=
  (List.range (xnew.length - 1)).mapM fun inew =>
    accumulateBin less xold dataOld (xnew.getD inew 0) (xnew.getD (inew + 1) 0) (some 0)

end Scipp.Rebin
