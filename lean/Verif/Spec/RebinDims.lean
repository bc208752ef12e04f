import Verif.Model.RebinDims
import Verif.Spec.RebinVar
/-!
What rebinning along several dims should compute.
-/
namespace Scipp.RebinDims
open Scipp Props

/-- A coord with one dim. -/
def along (d : Dim) (xs : List ℚ) : Coord := ⟨[(d, xs.length)], fun c => xs.getD (c d).toNat 0⟩

/-- A dim with its edges, old and new. -/
structure Job where
  dim : Dim
  old : List ℚ
  new : List ℚ

/-- The fraction of old bin `i` that lies in new bin `j`. -/
def share (old new : List ℚ) (i j : Nat) : ℚ :=
  overlapLength (min (old.getD i 0) (old.getD (i + 1) 0)) (max (old.getD i 0) (old.getD (i + 1) 0))
    (min (new.getD j 0) (new.getD (j + 1) 0)) (max (new.getD j 0) (new.getD (j + 1) 0)) / |old.getD (i + 1) 0 - old.getD i 0|

/-- Sum over all positions along some dims with the given lengths. -/
def total : List (Dim × Nat) → ((Dim → Int) → ℚ) → (Dim → Int) → ℚ
  | [], f, c => f c
  | (d, n) :: rest, f, c => ∑ i ∈ Finset.range n, total rest f (upd c d (i : Int))

/-- A mask that depends on one of the dims masks the element. -/
def Masked (masks : List (Dim × Mask)) (dims : List Dim) (c : Dim → Int) : Prop := ∃ e ∈ masks, (∃ d ∈ dims, d ∈ e.2.dims) ∧ e.2.m c = true

open Classical in
/-- The elements with those that are masked replaced by zero. -/
noncomputable def unmasked (masks : List (Dim × Mask)) (dims : List Dim) (f : (Dim → Int) → ℚ) (c : Dim → Int) : ℚ := if Masked masks dims c then 0 else f c

/-- The counts in the new bin at `c`: from every old bin the fraction that lies in the new one. -/
noncomputable def rebinnedAt (masks : List (Dim × Mask)) (jobs : List Job) (f : (Dim → Int) → ℚ) (c : Dim → Int) : ℚ :=
  total (jobs.map fun j => (j.dim, j.old.length - 1))
    (fun q => (jobs.map fun j => share j.old j.new (q j.dim).toNat (c j.dim).toNat).prod * unmasked masks (jobs.map (·.dim)) f q) c

/-- Every old edge lies between new edges. -/
def Spans (new old : List ℚ) : Prop := ∀ x ∈ old, ∃ y ∈ new, ∃ z ∈ new, y ≤ x ∧ x ≤ z

/-- The array has edges as given, and old and new edges rise or fall together. -/
structure Job.Fits (j : Job) (a : Array) : Prop where
  dim : (j.dim, (j.old.length : Int) - 1) ∈ a.dims
  coord : (j.dim, along j.dim j.old) ∈ a.coords
  bins : 2 ≤ j.old.length ∧ j.new ≠ []
  monotonic : (Increasing j.old ∧ Increasing j.new) ∨ (Decreasing j.old ∧ Decreasing j.new)

/-- Names are unique, and masks depend on their dims only. -/
structure Array.WF (a : Array) : Prop where
  dims : (a.dims.map (·.1)).Nodup
  coords : (a.coords.map (·.1)).Nodup
  masks : ∀ e ∈ a.masks, ∀ c c' : Dim → Int, (∀ d ∈ e.2.dims, c d = c' d) → e.2.m c = e.2.m c'

/-- Sizes after rebinning. -/
def newDims (dims : List (Dim × Int)) (jobs : List Job) : List (Dim × Int) :=
  dims.map fun p => match jobs.find? (fun j => j.dim == p.1) with
    | some j => (p.1, (j.new.length : Int) - 1)
    | none => p

end Scipp.RebinDims
