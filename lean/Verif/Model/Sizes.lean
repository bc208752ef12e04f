/-
Model of the label/extent containers of scipp:
`lib/core/sizes.cpp`, `lib/core/dimensions.cpp`, `lib/core/slice.cpp`,
`lib/core/strides.cpp`, `lib/core/rename.h`, parts of `lib/core/except.cpp`.

Extents and indices (`scipp::index`, a signed 64 bit integer) are modelled by
unbounded `Int`.
-/
namespace Scipp

deriving instance DecidableEq for Except

/-- Dimension label. `lib/units/include/scipp/units/dim.h`: a `Dim` is an
interned string id; two labels are equal iff their ids are equal. -/
abbrev Dim := Nat

/-- `Dim::Invalid` (`lib/units/include/scipp/units/dim.h`, enum `DimId::Invalid`). -/
def Dim.invalid : Dim := 0

/-- `Dim::None` (`lib/units/include/scipp/units/dim.h`), used by the default
constructed `Slice` (`lib/core/include/scipp/core/slice.h` 17). -/
def Dim.none : Dim := 1

/-- The exception classes that the modelled functions throw
(`lib/core/include/scipp/core/except.h`, `lib/units/include/scipp/units/except.h`).
Only the class is modelled, not the message. `outOfRange` is `std::out_of_range`. -/
inductive Err
  | dimension | slice | notFound | unit | variances | binEdge | dtype
  | readonly | variable | dataArray | binned | runtime | invalidArgument
  | dataset | logic | outOfRange
  /-- Not an exception: out-of-bounds access or another undefined behaviour. -/
  | ub
  deriving DecidableEq, Repr

/-- `small_stable_map<Dim, scipp::index, N>`: keys with values in a stable
order (`lib/core/include/scipp/core/sizes.h` 34-78). The two parallel vectors
`m_keys`, `m_values` are modelled as one list of pairs, which loses nothing since
all member functions change both vectors at the same position. -/
abbrev Sizes := List (Dim × Int)

namespace Sizes

/-- `labels()`/`keys()` (`sizes.h` 68-70, 100). -/
def labels (s : Sizes) : List Dim := s.map Prod.fst

/-- `sizes()`/`values()` (`sizes.h` 71-73, 102), `Dimensions::shape` (`dimensions.h` 52-54). -/
def shape (s : Sizes) : List Int := s.map Prod.snd

/-- `small_stable_map::contains` (`sizes.cpp` 59-62). -/
def contains (s : Sizes) (d : Dim) : Bool := s.any (fun p => p.1 == d)

/-- `small_stable_map::at`/`operator[]`/`index` (`sizes.cpp` 64-82): value of the
first entry with this key, `DimensionError` if absent. -/
def at? : Sizes → Dim → Except Err Int
  | [], _ => .error .dimension
  | (k, v) :: s, d => if k = d then .ok v else at? s d

/-- `small_stable_map::operator==` (`sizes.cpp` 36-45): same number of entries, and
every key of the first is in the second with the same value. -/
def eqMap (a b : Sizes) : Bool :=
  a.length == b.length &&
    a.all (fun p => b.contains p.1 && decide (at? a p.1 = at? b p.1))

/-- `small_stable_map::assign` (`sizes.cpp` 84-88). -/
def assign : Sizes → Dim → Int → Except Err Sizes
  | [], _, _ => .error .dimension
  | (k, v) :: s, d, x =>
    if k = d then .ok ((k, x) :: s) else (assign s d x).map ((k, v) :: ·)

/-- `small_stable_map::insert_left` (`sizes.cpp` 90-96, `expectUnique` 14-17). -/
def insertLeft (s : Sizes) (d : Dim) (x : Int) : Except Err Sizes :=
  if s.contains d then .error .dimension else .ok ((d, x) :: s)

/-- `small_stable_map::insert_right` (`sizes.cpp` 98-104). -/
def insertRight (s : Sizes) (d : Dim) (x : Int) : Except Err Sizes :=
  if s.contains d then .error .dimension else .ok (s ++ [(d, x)])

/-- `small_stable_map::erase` (`sizes.cpp` 106-111). -/
def erase : Sizes → Dim → Except Err Sizes
  | [], _ => .error .dimension
  | (k, v) :: s, d => if k = d then .ok s else (erase s d).map ((k, v) :: ·)

/-- Second part of `small_stable_map::replace_key` (`sizes.cpp` 124):
`m_keys[index(key)] = new_key`. -/
def setKey : Sizes → Dim → Dim → Except Err Sizes
  | [], _, _ => .error .dimension
  | (k, v) :: s, d, d' =>
    if k = d then .ok ((d', v) :: s) else (setKey s d d').map ((k, v) :: ·)

/-- `small_stable_map::replace_key` (`sizes.cpp` 119-125). -/
def replaceKey (s : Sizes) (d d' : Dim) : Except Err Sizes :=
  if d ≠ d' ∧ s.contains d' then .error .dimension else setKey s d d'

/-- `Sizes::set` (`sizes.cpp` 129-138, `validDim`/`validExtent` `except.cpp` 106-114). -/
def set (s : Sizes) (d : Dim) (x : Int) : Except Err Sizes :=
  if d = Dim.invalid then .error .dimension
  else if x < 0 then .error .dimension
  else match at? s d with
    | .ok y => if y ≠ x then .error .dimension else .ok s
    | .error _ => insertRight s d x

/-- `Sizes::resize` (`sizes.cpp` 140-143). -/
def resize (s : Sizes) (d : Dim) (x : Int) : Except Err Sizes :=
  if x < 0 then .error .dimension else assign s d x

/-- `Sizes::includes` (`sizes.cpp` 145-150). -/
def includes (s o : Sizes) : Bool :=
  o.all (fun p => s.contains p.1 && decide (at? s p.1 = at? o p.1))

end Sizes

/-- `class Slice` (`lib/core/include/scipp/core/slice.h` 15-36). `stop = -1`
marks a point slice. -/
structure Slice where
  dim : Dim
  start : Int
  stop : Int
  stride : Int
  deriving DecidableEq, Repr

namespace Slice

/-- Default constructor `Slice{}` (`slice.h` 17): "no slicing". -/
def none : Slice := ⟨Dim.none, -1, -1, 1⟩

/-- Range constructor (`lib/core/slice.cpp` 26-38). -/
def range (d : Dim) (b e : Int) (st : Int := 1) : Except Err Slice :=
  if b < 0 then .error .slice
  else if e ≠ -1 ∧ b > e then .error .slice
  else if st = 0 then .error .slice
  else if st < 0 then .error .slice
  else .ok ⟨d, b, e, st⟩

/-- Point constructor (`slice.cpp` 44-47). -/
def point (d : Dim) (b : Int) : Except Err Slice :=
  if b < 0 then .error .slice else .ok ⟨d, b, -1, 1⟩

/-- `Slice::isRange` (`slice.h` 29). -/
def isRange (s : Slice) : Bool := s.stop ≠ -1

/-- What the constructors guarantee: the slice came out of `range` or `point`. -/
def Constructed (s : Slice) : Prop :=
  range s.dim s.start s.stop s.stride = .ok s ∨ point s.dim s.start = .ok s

end Slice

namespace Sizes

/-- `expect::validSlice` (`lib/core/except.cpp` 97-104). -/
def validSlice (s : Sizes) (p : Slice) : Except Err Unit :=
  if p = Slice.none then .ok ()
  else
    let e := if p.stop < 0 then p.start + 1 else p.stop
    match at? s p.dim with
    | .error _ => .error .slice
    | .ok n => if e > n then .error .slice else .ok ()

/-- Extent of a range slice (`sizes.cpp` 158-163). C++ `/` and `%` truncate
towards zero: `Int.tdiv`, `Int.tmod`. -/
def sliceExtent (b e st : Int) : Int :=
  max 0 ((e - b).tdiv st + if (e - b).tmod st ≠ 0 then 1 else 0)

/-- `Sizes::slice` (`sizes.cpp` 152-167). -/
def slice (s : Sizes) (p : Slice) : Except Err Sizes := do
  validSlice s p
  if p = Slice.none then .ok s
  else if p.isRange then resize s p.dim (sliceExtent p.start p.stop p.stride)
  else erase s p.dim

/-- `detail::rename_dims` (`lib/core/rename.h` 16-30): applied one pair after the
other to the intermediate result. -/
def renameDims (s : Sizes) : List (Dim × Dim) → Bool → Except Err Sizes
  | [], _ => .ok s
  | (f, t) :: ns, strict =>
    if s.contains f then do renameDims (← replaceKey s f t) ns strict
    else if strict then .error .dimension
    else renameDims s ns strict

/-- `concat2` (`sizes.cpp` 175-179). `Slice{dim, 0}` is the point slice at 0. -/
def concat2 (a b : Sizes) (d : Dim) : Except Err Sizes := do
  let out ← if a.contains d then a.slice ⟨d, 0, -1, 1⟩ else .ok a
  let na ← if a.contains d then a.at? d else .ok 1
  let nb ← if b.contains d then b.at? d else .ok 1
  out.set d (na + nb)

/-- `concat(span<Sizes>, dim)` (`sizes.cpp` 182-187); `front()` of an empty span is
undefined behaviour. -/
def concat (ss : List Sizes) (d : Dim) : Except Err Sizes :=
  match ss with
  | [] => .error .ub
  | s :: rest => rest.foldlM (fun out x => concat2 out x d) s

/-- `merge(Sizes, Sizes)` (`sizes.cpp` 189-194). -/
def mergeSizes (a b : Sizes) : Except Err Sizes :=
  b.foldlM (fun out p => do out.set p.1 (← b.at? p.1)) a

/-- `is_edges` (`sizes.cpp` 196-212). First argument: sizes of the data; second:
dims of the coordinate. -/
def isEdges (sizes coord : Sizes) (d : Dim) : Bool :=
  if d = Dim.invalid ∨ coord.contains d = false then false
  else if sizes.isEmpty = false ∧
      coord.any (fun p => p.1 != d &&
        !(sizes.contains p.1 && decide (sizes.at? p.1 = coord.at? p.1))) then false
  else
    match coord.at? d, sizes.at? d with
    | .ok n, .ok m => n == m + 1
    | .ok n, .error _ => n == 2
    | .error _, _ => false

end Sizes

/-- `class Dimensions : public Sizes` (`lib/core/include/scipp/core/dimensions.h`
20-80): same data, with the order of the entries being meaningful (first entry =
outermost dimension). -/
abbrev Dims := Sizes

namespace Dims

/-- `Dimensions::operator==` (`dimensions.h` 36-46): order-sensitive. -/
def eqDims (a b : Dims) : Bool := decide (a = b)

/-- `Dimensions::volume` (`dimensions.h` 57-62). -/
def volume (s : Dims) : Int := s.foldl (fun acc p => acc * p.2) 1

/-- `Dimensions::add` (`dimensions.cpp` 40-44). -/
def add (s : Dims) (d : Dim) (x : Int) : Except Err Dims :=
  if d = Dim.invalid then .error .dimension
  else if x < 0 then .error .dimension
  else Sizes.insertLeft s d x

/-- `Dimensions::addInner` (`dimensions.cpp` 47-51). -/
def addInner (s : Dims) (d : Dim) (x : Int) : Except Err Dims :=
  if d = Dim.invalid then .error .dimension
  else if x < 0 then .error .dimension
  else Sizes.insertRight s d x

/-- Constructor from labels and shape (`dimensions.cpp` 14-24). -/
def ofLabels (labels : List Dim) (shape : List Int) : Except Err Dims :=
  if labels.length ≠ shape.length then .error .dimension
  else (labels.zip shape).foldlM (fun s p => addInner s p.1 p.2) []

/-- Constructor from an initializer list of pairs (`dimensions.h` 31-34). -/
def ofList (l : List (Dim × Int)) : Except Err Dims :=
  l.foldlM (fun s p => addInner s p.1 p.2) []

/-- `Dimensions::inner` (`dimensions.cpp` 54-58). -/
def inner (s : Dims) : Dim := (s.getLast?.map Prod.fst).getD Dim.invalid

/-- `Dimensions::offset` (`dimensions.cpp` 32-37): product of the extents after `d`. -/
def offset : Dims → Dim → Except Err Int
  | [], _ => .error .dimension
  | (k, _) :: s, d =>
    if k = d then .ok (s.foldl (fun acc p => acc * p.2) 1) else offset s d

/-- Inner `while` of `merge` (`dimensions.cpp` 85-89): advance the iterator into
`b`'s labels up to (not including) `dim`, appending labels not in `a`. -/
def mergeAdvance (a b : Dims) (dim : Dim) : List Dim → Dims → Except Err (List Dim × Dims)
  | [], out => .ok ([], out)
  | it :: rest, out =>
    if it = dim then .ok (it :: rest, out)
    else if Sizes.contains a it then mergeAdvance a b dim rest out
    else do
      let x ← Sizes.at? b it
      let out ← addInner out it x
      mergeAdvance a b dim rest out

/-- Final `while` of `merge` (`dimensions.cpp` 94-98). -/
def mergeRest (a b : Dims) : List Dim → Dims → Except Err Dims
  | [], out => .ok out
  | it :: rest, out =>
    if Sizes.contains a it then mergeRest a b rest out
    else do
      let x ← Sizes.at? b it
      let out ← addInner out it x
      mergeRest a b rest out

/-- `for` loop of `merge` over the labels of `a` (`dimensions.cpp` 78-92). -/
def mergeLoop (a b : Dims) : List Dim → List Dim → Dims → Except Err (List Dim × Dims)
  | [], it, out => .ok (it, out)
  | d :: ds, it, out => do
    let x ← Sizes.at? a d
    if Sizes.contains b d then
      let y ← Sizes.at? b d
      if x ≠ y then .error .dimension
      else
        let (it, out) ← mergeAdvance a b d it out
        let out ← addInner out d x
        mergeLoop a b ds it out
    else
      let out ← addInner out d x
      mergeLoop a b ds it out

/-- `merge(Dimensions, Dimensions)` (`dimensions.cpp` 74-100). -/
def merge (a b : Dims) : Except Err Dims := do
  let (it, out) ← mergeLoop a b (Sizes.labels a) (Sizes.labels b) []
  mergeRest a b it out

/-- `intersection` (`dimensions.cpp` 106-114). -/
def intersection (a b : Dims) : Except Err Dims := do
  let m ← merge a b
  (Sizes.labels m).foldlM (fun out d =>
    if Sizes.contains a d ∧ Sizes.contains b d then do addInner out d (← Sizes.at? m d)
    else .ok out) []

/-- `transpose_impl` (`dimensions.cpp` 117-126). -/
def transposeImpl (dims : Dims) (labels : List Dim) : Except Err Dims :=
  if labels.length ≠ dims.length then .error .dimension
  else do
    let shape ← labels.mapM (fun d => Sizes.at? dims d)
    ofLabels labels shape

/-- `transpose` (`dimensions.cpp` 129-137): no labels means reversed order. -/
def transpose (dims : Dims) (labels : List Dim) : Except Err Dims :=
  if labels.isEmpty then transposeImpl dims (Sizes.labels dims).reverse
  else transposeImpl dims labels

/-- `fold` (`dimensions.cpp` 147-164). -/
def fold (old : Dims) (from_ : Dim) (to : Dims) : Except Err Dims :=
  if Sizes.contains old from_ = false then .error .notFound
  else do
    let new ← old.foldlM (fun (s : Dims) p =>
      if p.1 ≠ from_ then addInner s p.1 p.2
      else to.foldlM (fun s q => addInner s q.1 q.2) s) []
    if volume old ≠ volume new then .error .dimension else .ok new

end Dims

/-- Loop of `Strides(Dimensions)` (`lib/core/strides.cpp` 15-22) from the innermost
dimension outwards: strides so far and the running product `offset`. -/
def rowMajorAux : List Int → List Int × Int
  | [] => ([], 1)
  | n :: ns => ((rowMajorAux ns).2 :: (rowMajorAux ns).1, (rowMajorAux ns).2 * n)

/-- The strides computed by `rowMajorAux` (`strides.cpp` 15-22); the second
component of `rowMajorAux` is the running `offset`. -/
def rowMajor (shape : List Int) : List Int := (rowMajorAux shape).1

end Scipp
