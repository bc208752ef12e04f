import Verif.Model.Transform
/-!
Model of reductions along a dim: `lib/variable/reduction.cpp` on top of
`accumulate_in_place` (`lib/variable/include/scipp/variable/accumulate.h`).
-/
namespace Scipp
variable {V : Type}

/-- `accumulate_in_place`: `in_place<false>::transform_data(types, op, name, var, other)` without
the check of dims that `transform_in_place` makes (accumulate.h 20-31 `do_accumulate` for small input,
106-114 `accumulate`; transform.h 489-527 and 638-649). Simplified: the input is not binned; the
threaded branches of `do_accumulate` are modelled in `Model/Accumulate.lean`. -/
def accumulateInPlace {N : Nat} (op : V → (Fin N → V) → V) (out : View) (ins : Fin N → Operand V) (mem : Int → V)
    (r : Except Err (Int → V)) : Prop := TransformInPlace op out ins mem r

/-- `reduce_dim` and `reduce_to_dims` (reduction.cpp 26-48): erase `dim` from the dims, make an
output filled with the initial value, accumulate the input into it. Simplified: dim is not `Dim::Invalid`;
masks of events and the detour of `sum_into` for `float` (reduction.cpp 252-260) are not
modelled. The result is the dims of the output and the memory it lives in. -/
def reduceDimView (op : V → V → V) (init : V) (x : Operand V) (dim : Dim) (r : Except Err (Dims × (Int → V))) : Prop :=
  match Sizes.erase x.view.dims dim with
  | .error e => r = .error e
  | .ok dims => ∃ r', accumulateInPlace (fun a (b : Fin 1 → V) => op a (b 0)) (View.fresh dims) (fun _ => x)
      (fun _ => init) r' ∧ r = r'.map (fun mem => (dims, mem))

/-- `reduce_all_dims` (operations_common.h 38-49): copy a scalar, otherwise reduce the innermost dim
until none is left. Every intermediate result is a new variable. Simplified: not binned. The result is the
value of the scalar. -/
inductive ReduceAllDims (op : V → V → V) (init : V) : Operand V → Except Err V → Prop
  | scalar {x : Operand V} {mem : Int → V} : x.view.dims = [] → x.buf = some mem →
      ReduceAllDims op init x (.ok (mem x.view.offset))
  | error {x : Operand V} {outer : Dims} {inner : Dim × Int} {e : Err} : x.view.dims = outer ++ [inner] →
      reduceDimView op init x inner.1 (.error e) → ReduceAllDims op init x (.error e)
  | step {x : Operand V} {outer dims : Dims} {inner : Dim × Int} {mem : Int → V} {r : Except Err V} :
      x.view.dims = outer ++ [inner] → reduceDimView op init x inner.1 (.ok (dims, mem)) →
      ReduceAllDims op init ⟨View.fresh dims, some mem⟩ r → ReduceAllDims op init x r

end Scipp
