import Verif.Props.Binning
import Verif.Model.ConcatBins
/-!
C48: concatenating all bins along a dim.
-/
namespace Scipp.Props
open Scipp Binning
variable {E : Type}

theorem rows_mono_one (row : List (List E)) : Rows.Mono (n := 1) InputBin.range (concatRow row) := by
  refine ⟨fun _ _ => trivial, ?_⟩
  have : ∀ l : List (List E), List.Pairwise (fun a b : InputBin E => a.range.1 ≤ b.range.1 ∧ a.range.2 ≤ b.range.2) (l.map concatInput) := by
    intro l
    rw [List.pairwise_map]
    exact List.pairwise_of_forall (fun _ _ => ⟨le_refl _, le_refl _⟩)
  exact this row

theorem concatInput_assigned (bin : List E) : (concatInput bin).assigned 0 = bin := by
  unfold InputBin.assigned concatInput
  rw [List.filter_eq_self.2 (by simp)]
  simp

/-- **C48** (one dim): `concatenate(var, dim)` gives one bin for every position of the other dims, with the events of all bins along the dim,
bin by bin and in their order. The sizes are the sums of the sizes along the dim, and the output buffer holds all events of all
input bins once, whatever the order in which the threads write. -/
theorem C48_concatenate_dim (rows : List (List (List E))) :
    ∃ m, concatBins rows = .ok m ∧ m.sizes = rows.map (fun row => ((row.map List.length).sum : Int)) ∧
      ∀ order, order.Perm m.writes.flatten →
        ∃ buf, buffer m order = .ok buf ∧ buf = rows.flatten.flatten.map some ∧
          readBins buf (binsFromSizes 0 m.sizes) = some (rows.map List.flatten) := by
  have hcont : binContents (n := 1) 1 (rows.map concatRow) = rows.map List.flatten := by
    have hrow : ∀ row : List (List E), binContent (n := 1) (concatRow row) 0 = row.flatten := by
      intro row
      unfold binContent
      have hflat : Rows.flat (n := 1) (concatRow row) = row.map concatInput := by
        show List.flatMap (Rows.flat (n := 0)) (row.map concatInput) = _
        have : ∀ l : List (InputBin E), List.flatMap (fun x => [x]) l = l := fun l => by simp
        exact this _
      rw [hflat, List.flatMap_map]
      simp only [concatInput_assigned]
      exact List.flatMap_id'
    unfold binContents
    rw [List.flatMap_map, List.map_eq_flatMap]
    refine List.flatMap_congr (fun row _ => ?_)
    have := hrow row
    simp only [List.range_one, List.map_cons, List.map_nil, Nat.cast_zero, this]
  obtain ⟨m, h1, h2, h3⟩ := C20_binning_partial (n := 1) 1 (rows.map concatRow) (by
    intro s hs b hb
    obtain ⟨row, _, rfl⟩ := List.mem_map.1 hs
    obtain ⟨x, hx, hb⟩ := List.mem_flatMap.1 hb
    obtain ⟨bin, _, rfl⟩ := List.mem_map.1 hx
    rw [List.mem_singleton.1 hb]
    refine ⟨le_refl _, Int.zero_le_ofNat 1, le_refl _, fun ie hie => ?_⟩
    obtain ⟨e, _, rfl⟩ := List.mem_map.1 hie
    exact Int.zero_lt_one) (by
    intro s hs
    obtain ⟨row, _, rfl⟩ := List.mem_map.1 hs
    exact rows_mono_one row)
  rw [hcont] at h2 h3
  refine ⟨m, h1, ?_, fun order ho => ?_⟩
  · rw [h2, List.map_map]
    refine List.map_congr_left (fun row _ => ?_)
    simp only [Function.comp, List.length_flatten]
  · obtain ⟨buf, b1, b2, b3⟩ := h3 order ho
    refine ⟨buf, b1, ?_, b3⟩
    rw [b2, List.flatten_flatten]

example : (concatBins [[[1, 2], [], [3]], [[4], [5, 6], []]]).map (fun m => (m.sizes, (buffer m m.writes.flatten).toOption)) =
    .ok ([3, 3], some [some 1, some 2, some 3, some 4, some 5, some 6]) := by decide

example := C48_concatenate_dim [[[1, 2], [], [3]], [[4], [5, 6], []]]

end Scipp.Props
