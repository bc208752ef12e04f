import Verif.Model.Binning
/-
Model of `concat_bins` (`lib/dataset/bin.cpp` 527-544), which implements `concatenate(var, dim)` (`lib/dataset/bins.cpp` 264-300).
-/
namespace Scipp.Binning
variable {E : Type}

/-- An input bin of `concat_bins`: the builder has the single dim `dim` of length 1 and no actions (`bin.cpp` 438, 532-536), hence offset 0,
one considered output bin (311-312) and target bin 0 for every event (`TargetBins`, 43-61: the indices are created as zeros). -/
def concatInput (bin : List E) : InputBin E := ⟨0, 1, bin.map fun e => (0, e)⟩

/-- The input bins along `dim` for one position of the other dims, as the mapper sees them. -/
def concatRow (row : List (List E)) : Rows (InputBin E) 1 := row.map concatInput

/-- `concat_bins` (`bin.cpp` 531-542): `rows` are the input bins along `dim`, for every position of the other dims. As there is a single
output bin per position `make_mapper` (190-230) uses the single stage. The squeezing of the dim of length 1 is not modelled. -/
def concatBins (rows : List (List (List E))) : Except Err (Mapped E) := singleStage (n := 1) 1 (rows.map concatRow)

end Scipp.Binning
