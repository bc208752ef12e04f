import Verif.Model.Transform
/-
Model of the checks that prevent broadcasting of variances:
`lib/variable/include/scipp/variable/transform.h` 382-395, 410-420, 651-672.
-/
namespace Scipp

/-- What the checks look at: a view, whether the elements have variances, and whether the
elements are bins (`VariableAccess`, `lib/variable/include/scipp/variable/visit.h` 16-33:
`dims`, `strides`, `has_variances`, `is_bins`). For binned data the view is the one of the
array of bins and `hasVar` refers to the elements inside the bins. -/
structure VarInfo where
  view : View
  hasVar : Bool
  isBins : Bool
  deriving DecidableEq, Repr

/-- `bad_variance_broadcast` (`transform.h` 382-395). -/
def badVarianceBroadcast (dims : Dims) (o : VarInfo) : Bool :=
  if o.hasVar = false then false
  else if o.view.dims.length < dims.length then true
  else if Dims.volume dims = 0 then false
  else o.view.strides.any (fun s => s == 0)

/-- An operand without bins whose elements have variances (`transform.h` 418, 667). -/
def VarInfo.denseVar (o : VarInfo) : Bool := o.hasVar && !o.isBins

/-- The checks at the beginning of `Transform::operator()` (`transform.h` 410-420); the result
is the dims of the output. Operations flagged `force_variance_broadcast` skip
the variance checks (`force`). -/
def transformChecks (force : Bool) (a : VarInfo) (others : List VarInfo) : Except Err Dims :=
  match mergeAll a.view.dims (others.map (fun o => o.view.dims)) with
  | .error e => .error e
  | .ok dims =>
    if force then .ok dims
    else if (a :: others).any (badVarianceBroadcast dims) then .error .variances
    else if (a :: others).any (fun o => o.isBins) && (a :: others).any VarInfo.denseVar then
      .error .variances
    else .ok dims

/-- The checks at the beginning of the in-place `transform` (`transform.h` 651-672). -/
def inPlaceChecks (force : Bool) (target : VarInfo) (others : List VarInfo) : Except Err Unit :=
  if others.any (fun o => !Sizes.includes target.view.dims o.view.dims) then .error .dimension
  else if !target.isBins && others.any (fun o => o.isBins) then .error .binned
  else if force then .ok ()
  else match mergeAll target.view.dims (others.map (fun o => o.view.dims)) with
    | .error e => .error e
    | .ok dims =>
      if others.any (badVarianceBroadcast dims) then .error .variances
      else if (target.isBins || others.any (fun o => o.isBins)) && others.any VarInfo.denseVar then
        .error .variances
      else .ok ()

end Scipp
