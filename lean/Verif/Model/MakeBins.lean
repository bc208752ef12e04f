import Verif.Model.Sizes
import Mathlib.Data.List.Sort
/-
Model of the construction of binned variables from begin and end indices: `call_make_bins`
(`lib/python/bins.cpp` 27-58) and `expect_valid_bin_indices`
(`lib/variable/variable_instantiate_bin_elements.cpp` 38-57).
-/
namespace Scipp.MakeBins

/-- `operator<` of `std::pair`, as "not greater" (used by `std::sort`,
`variable_instantiate_bin_elements.cpp` 43). -/
def lexLe (a b : Int × Int) : Bool := decide (a.1 < b.1 ∨ (a.1 = b.1 ∧ a.2 ≤ b.2))

/-- `std::sort(vals.begin(), vals.end())` (`variable_instantiate_bin_elements.cpp` 43). Modelled by an insertion sort:
the sorted sequence is unique since the order is total. -/
def sortPairs (l : List (Int × Int)) : List (Int × Int) := l.insertionSort (fun a b => lexLe a b = true)

/-- `std::adjacent_find(…) != end` (`variable_instantiate_bin_elements.cpp` 47-50). -/
def adjacentOverlap : List (Int × Int) → Bool
  | a :: b :: l => decide (a.2 > b.1) || adjacentOverlap (b :: l)
  | _ => false

/-- `!vals.empty() && vals.begin()->first < 0` (`variable_instantiate_bin_elements.cpp` 44). -/
def firstNegative : List (Int × Int) → Bool
  | [] => false
  | p :: _ => decide (p.1 < 0)

/-- `!vals.empty() && (vals.end() - 1)->second > size` (`variable_instantiate_bin_elements.cpp` 45). -/
def lastBeyond (l : List (Int × Int)) (n : Int) : Bool := l.getLast?.any fun p => decide (p.2 > n)

/-- `expect_valid_bin_indices` (`variable_instantiate_bin_elements.cpp` 38-57). `unitNone`: the indices have unit `none`;
`vals`: the elements of the index variable in any order, `n`: length of the buffer along the bin
dimension. -/
def expectValid (unitNone : Bool) (vals : List (Int × Int)) (n : Int) : Except Err Unit :=
  if unitNone = false then .error .unit
  else
    let sorted := sortPairs vals
    if firstNegative sorted || lastBeyond sorted n then .error .slice
    else if adjacentOverlap sorted then .error .slice
    else if sorted.any (fun p => decide (p.1 > p.2)) then .error .slice
    else .ok ()

/-- The loop filling in missing end indices (`lib/python/bins.cpp` 42-47): the next begin, or the length of the data
for the last bin. -/
def fillEnds : List Int → Int → List (Int × Int)
  | [], _ => []
  | [b], n => [(b, n)]
  | b :: b' :: l, n => (b, b') :: fillEnds (b' :: l) n

/-- Running sum over ones, exclusive (`cumsum(ones, dim, CumSumMode::Exclusive)`, `lib/python/bins.cpp` 50-52; C29),
starting from `acc`. -/
def cumsumOnes (acc : Int) : Nat → List Int
  | 0 => []
  | k + 1 => acc :: cumsumOnes (acc + 1) k

/-- `call_make_bins` (`lib/python/bins.cpp` 27-58): the indices of the binned variable, in row-major order.
`begin` and `end` are the elements of the given variables in row-major order. Simplified: int64 indices, `begin` and
`end` of the same shape (otherwise an error here, broadcast in the code). -/
def callMakeBins (unitNone : Bool) (begin_ end_ : Option (List Int)) (n : Nat) (validate : Bool) :
    Except Err (List (Int × Int)) := do
  let indices ← match begin_, end_ with
    | some b, some e => if b.length = e.length then .ok (b.zip e) else .error .dimension
    | some b, none => .ok (fillEnds b n)
    | none, none => .ok ((cumsumOnes 0 n).map fun b => (b, b + 1))
    | none, some _ => .error .runtime
  if validate then expectValid unitNone indices n
  .ok indices

end Scipp.MakeBins
