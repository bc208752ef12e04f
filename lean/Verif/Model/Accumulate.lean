import Verif.Model.Transform
/-
Model of `do_accumulate` (`lib/variable/include/scipp/variable/accumulate.h` 15-110), the
multi-threaded reduction.

`A` is the type of coordinates of the elements of the output `var`, `V` the element type. A single
`transform_data` call (`accumulate.h` 28, 42, 90, 91, 103) combines, for every output element, the inputs
belonging to it one after the other in the order of iteration; this order and the visited
elements are the subject of C11 and C12 and enter here as given lists.
-/
namespace Scipp
namespace Accumulate
variable {A V : Type}

/-- What `do_accumulate` looks at. -/
structure Input (A V : Type) where
  /-- `other.dims().includes(var.dims())` for all of `other` (line 25) -/
  includesVar : Bool
  /-- `is_bins(other) || ...` (line 23) -/
  binned : Bool
  /-- `other.dims().volume()` for each of `other` (line 26) -/
  volumes : List Int
  /-- `var.dims().ndim()` -/
  varNdim : Nat
  /-- `var.dims()[*var.dims().begin()]` (lines 56, 68), unused for `varNdim = 0` -/
  varOuterSize : Int
  /-- coordinate of an output element along the outer dim of `var` -/
  varOuter : A → Int
  /-- the outer dim of `other` is not a dim of `var` (lines 61-62) -/
  reduceOuter : Bool
  /-- `other.dims()[outer_dim]` (line 75) -/
  outerSize : Int
  /-- the inputs combined into an output element, in the order of iteration, for a given
  index along the outer dim of `other` -/
  contrib : Int → A → List V

/-- Inputs combined into an element when iterating over the slice `[b, e)` of the outer dim of
`other`. -/
def Input.range (x : Input A V) (b e : Int) (a : A) : List V := (intRange b e).flatMap (fun j => x.contrib j a)

/-- One `transform_data` call on the given range (`accumulate.h` 42; the temporary copy of lines 37-45 has no effect on
the values). -/
def reduceRange (op : V → V → V) (x : Input A V) (b e : Int) (init : A → V) : A → V :=
  fun a => (x.range b e a).foldl op (init a)

/-- `return in_place<false>::transform_data(types, op, name, var, other...)`
(`accumulate.h` 28, 91). -/
def serial (op : V → V → V) (x : Input A V) (init : A → V) : A → V :=
  reduceRange op x 0 x.outerSize init

/-- `nchunk` (`accumulate.h` 76). -/
def nchunk (outer : Int) : Int := min 24 outer

/-- `chunk_size` (`accumulate.h` 77). -/
def chunkSize (outer n : Int) : Int := (outer + n - 1).tdiv n

/-- Bounds of the `i`-th chunk (`accumulate.h` 96-97). -/
def chunkBounds (outer n i : Int) : Int × Int :=
  (min (i * chunkSize outer n) outer, min ((i + 1) * chunkSize outer n) outer)

/-- The path chunking along the outer dim of the input (`accumulate.h` 92-103). `v` are
the partial results, initialised by a broadcast of `var`; every chunk has its own part of `v`, so the order of
execution of the chunks is immaterial. The last `transform_data` combines the chunks in order. -/
def chunked (op : V → V → V) (x : Input A V) (init : A → V) : A → V :=
  let n := nchunk x.outerSize
  let v : Int → A → V := fun i =>
    reduceRange op x (chunkBounds x.outerSize n i).1 (chunkBounds x.outerSize n i).2 init
  fun a => ((intRange 0 n).map (fun i => v i a)).foldl op (init a)

/-- `accumulate_parallel` (`accumulate.h` 52-60): the blocks of the outer dim of `var` in the order
of execution; a block changes the output elements it covers. -/
def accumulateParallel (op : V → V → V) (x : Input A V) (blocks : List (Int × Int)) (init : A → V) : A → V :=
  blocks.foldl (fun s b => fun a =>
    if b.1 ≤ x.varOuter a ∧ x.varOuter a < b.2 then reduceRange op x 0 x.outerSize s a else s a) init

/-- `do_accumulate` (`accumulate.h` 15-110); `blocks` are the blocks made by the scheduler if the
output is split. `same` is the comparison `var != v` (line 90) of the initial output with the
output combined with itself. -/
def doAccumulate (op : V → V → V) (same : (A → V) → (A → V) → Bool) (x : Input A V) (blocks : List (Int × Int))
    (init : A → V) : A → V :=
  let small : Int := if x.binned then 2 else 16384
  if x.includesVar = false ∨ x.volumes.all (fun v => v < small) ∨ (x.volumes.length ≠ 1 ∧ x.varNdim = 0) then
    serial op x init
  else if x.volumes.length = 1 ∧ (x.varNdim = 0 ∨ (x.reduceOuter ∧ x.varOuterSize < 65536)) then
    if same init (fun a => op (init a) (init a)) = false then serial op x init
    else chunked op x init
  else accumulateParallel op x blocks init

end Accumulate
end Scipp
