import Verif.Model.Sizes
/-
Model of `core::SubbinSizes` (`lib/core/subbin_sizes.cpp` 13-116): the sizes of consecutive sub-bins
starting at an offset. Element access outside a vector is `Err.ub`.
-/
namespace Scipp

/-- `v[i]` of a `std::vector`, `none` if outside the vector. -/
def vecGet {α : Type} (v : List α) (i : Int) : Option α := if i < 0 then none else v[i.toNat]?

/-- `v[i] = x` of a `std::vector`, `none` if outside the vector. -/
def vecSet {α : Type} (v : List α) (i : Int) (x : α) : Option (List α) :=
  if i < 0 ∨ (v.length : Int) ≤ i then none else some (v.set i.toNat x)

/-- `SubbinSizes` (`lib/core/include/scipp/core/subbin_sizes.h` 17-45). -/
structure SubbinSizes where
  offset : Int
  sizes : List Int
  deriving DecidableEq, Repr

namespace SubbinSizes

/-- The constructor (`subbin_sizes.cpp` 15-19). -/
def mk' (offset : Int) (sizes : List Int) : Except Err SubbinSizes :=
  if offset < 0 then .error .logic else .ok ⟨offset, sizes⟩

/-- `operator=(value)` (`subbin_sizes.cpp` 21-24). -/
def assign (s : SubbinSizes) (value : Int) : SubbinSizes := ⟨s.offset, s.sizes.map fun _ => value⟩

/-- The loop `for (x : xs) op(m[current++], x)` (`subbin_sizes.cpp` 33-34, 75-76, 78-79). -/
def opLoop (op : Int → Int → Int) : List Int → Int → List Int → Except Err (List Int)
  | m, _, [] => .ok m
  | m, current, x :: xs =>
    match vecGet m current with
    | none => .error .ub
    | some y =>
      match vecSet m current (op y x) with
      | none => .error .ub
      | some m' => opLoop op m' (current + 1) xs

/-- `binary` (`subbin_sizes.cpp` 68-81). -/
def binary (op : Int → Int → Int) (a b : SubbinSizes) : Except Err SubbinSizes := do
  let begin' := min a.offset b.offset
  let end' := max (a.offset + a.sizes.length) (b.offset + b.sizes.length)
  let sizes := List.replicate (end' - begin').toNat 0
  let sizes ← opLoop (· + ·) sizes (a.offset - begin') a.sizes
  let sizes ← opLoop op sizes (b.offset - begin') b.sizes
  mk' begin' sizes

/-- `operator+` (`subbin_sizes.cpp` 83-85). -/
def add (a b : SubbinSizes) : Except Err SubbinSizes := binary (· + ·) a b

/-- `operator-` and `operator-=` (`subbin_sizes.cpp` 87-89, 38-40). -/
def sub (a b : SubbinSizes) : Except Err SubbinSizes := binary (· - ·) a b

/-- `operator+=` (`subbin_sizes.cpp` 26-36). -/
def addAssign (s other : SubbinSizes) : Except Err SubbinSizes :=
  if other.offset < s.offset then add s other
  else do
    let current := other.offset - s.offset
    let length := current + other.sizes.length
    let m := if (s.sizes.length : Int) < length then s.sizes ++ List.replicate (length.toNat - s.sizes.length) 0
      else s.sizes
    let m ← opLoop (· + ·) m current other.sizes
    return ⟨s.offset, m⟩

/-- The loop of `cumsum_exclusive` with `element::exclusive_scan`
(`subbin_sizes.cpp` 44-46, `lib/core/include/scipp/core/element/cumulative.h` 16-22). -/
def cumsumLoop : Int → List Int → List Int
  | _, [] => []
  | sum, x :: xs => (sum + x - x) :: cumsumLoop (sum + x) xs

/-- `cumsum_exclusive` (`subbin_sizes.cpp` 42-48). -/
def cumsumExclusive (s : SubbinSizes) : Except Err SubbinSizes := mk' s.offset (cumsumLoop 0 s.sizes)

/-- `sum` (`subbin_sizes.cpp` 50-52). -/
def sum (s : SubbinSizes) : Int := s.sizes.foldl (· + ·) 0

/-- The loop of `add_intersection` (`subbin_sizes.cpp` 58-60); `other` is what remains of `other.sizes()` from
index `j` on, thus `j < scipp::size(other.sizes())` means `other` is not empty. -/
def intersectLoop : List Int → Int → List Int → Except Err (List Int)
  | m, _, [] => .ok m
  | m, i, x :: xs =>
    if i < m.length then
      match vecGet m i with
      | none => .error .ub
      | some y =>
        match vecSet m i (y + x) with
        | none => .error .ub
        | some m' => intersectLoop m' (i + 1) xs
    else .ok m

/-- `add_intersection` (`subbin_sizes.cpp` 54-62). -/
def addIntersection (s other : SubbinSizes) : Except Err SubbinSizes := do
  let delta := other.offset - s.offset
  let m ← intersectLoop s.sizes (max 0 delta) (other.sizes.drop (max 0 (-delta)).toNat)
  return ⟨s.offset, m⟩

/-- `prev` in iteration `i` of `exclusive_scan` (`subbin_sizes.cpp` 106). -/
def scanPrev (osize delta i : Int) (m : List Int) : Except Err Int :=
  if osize ≤ delta + i then .ok 0
  else match vecGet m (delta + i) with
    | none => .error .ub
    | some y => .ok y

/-- Storing the new element `v` of the accumulant in iteration `i` (`subbin_sizes.cpp` 107-110). -/
def scanStore (osize i : Int) (m : List Int) (v : Int) : Except Err (List Int) :=
  if osize ≤ i then .ok (m ++ [v])
  else match vecSet m i v with
    | none => .error .ub
    | some m' => .ok m'

/-- The loop of `exclusive_scan` (`subbin_sizes.cpp` 105-112) from index `i` on, with `rest` the elements of
`x.m_sizes` from `i` on. Returns `m_sizes` and the new elements of `x.m_sizes` from `i` on. -/
def scanLoop (osize delta : Int) : Int → List Int → List Int → Except Err (List Int × List Int)
  | _, m, [] => .ok (m, [])
  | i, m, x :: rest => do
    let prev ← scanPrev osize delta i m
    let m' ← scanStore osize i m (prev + x)
    let r ← scanLoop osize delta (i + 1) m' rest
    return (r.1, prev :: r.2)

/-- `exclusive_scan` (`subbin_sizes.cpp` 99-114): the accumulant `s` and the argument `x` afterwards.
`resize` to a larger size (never needed) would append zeros. -/
def exclusiveScan (s x : SubbinSizes) : Except Err (SubbinSizes × SubbinSizes) := do
  let (m, xs) ← scanLoop s.sizes.length (x.offset - s.offset) 0 s.sizes x.sizes
  let size := x.sizes.length
  let m := m.take size ++ List.replicate (size - m.length) 0
  return (⟨x.offset, m⟩, ⟨x.offset, xs⟩)

/-- The scan over slices `accumulate_in_place` performs with `exclusive_scan`
(`lib/variable/bin_detail.cpp` 82-84, `lib/core/include/scipp/core/element/bin_detail.h` 46-47). -/
def scanList : SubbinSizes → List SubbinSizes → Except Err (List SubbinSizes)
  | _, [] => .ok []
  | acc, x :: xs => do
    let (acc', x') ← exclusiveScan acc x
    let r ← scanList acc' xs
    return x' :: r

/-- `subbin_sizes_cumsum_exclusive` (`lib/variable/bin_detail.cpp` 76-86) for a single row along the dim: the scan
starts with a copy of the first element with all sizes set to zero (`fill_zeros`, line 80). -/
def cumsumExclusiveList : List SubbinSizes → Except Err (List SubbinSizes)
  | [] => .ok []
  | x :: xs => scanList (x.assign 0) (x :: xs)

end SubbinSizes
end Scipp
