import Verif.Model.Binning
/-!
Vocabulary for stating what binning does.
-/
namespace Scipp.Binning
variable {E : Type}

/-- The events of an input bin assigned to output bin `p`, in their order. -/
def InputBin.assigned (b : InputBin E) (p : Int) : List E :=
  (b.events.filter fun ie => decide (0 ≤ ie.1 ∧ b.offset + ie.1 = p)).map (·.2)

/-- All considered output bins exist, and events are assigned to considered bins (or to none). -/
def InputBin.Fits (length : Nat) (b : InputBin E) : Prop :=
  0 ≤ b.offset ∧ 0 ≤ b.nbin ∧ b.offset + b.nbin ≤ length ∧ ∀ ie ∈ b.events, ie.1 < b.nbin

/-- First of the considered output bins of a slice of input bins. -/
def Rows.first {α : Type} (range : α → Int × Int) : {n : Nat} → Rows α n → Int
  | 0, x => (range x).1
  | _ + 1, _ => 0

/-- End of the considered output bins of a slice of input bins. -/
def Rows.last {α : Type} (range : α → Int × Int) : {n : Nat} → Rows α n → Int
  | 0, x => (range x).2
  | _ + 1, xs => List.foldl (fun m x => max m (Rows.last range x)) 0 xs

/-- Neither begin nor end of the range of considered output bins decrease along any of the rebinned dims. This holds if all output bins are
considered, or if only those are that overlap with sorted 1-D bin edges. -/
def Rows.Mono {α : Type} (range : α → Int × Int) : {n : Nat} → Rows α n → Prop
  | 0, _ => True
  | _ + 1, xs => (∀ x, List.Mem x xs → Rows.Mono range x) ∧
    List.Pairwise (fun a b => Rows.first range a ≤ Rows.first range b ∧ Rows.last range a ≤ Rows.last range b) xs

/-- The nested lists have the given lengths, as for a multi-dimensional array. -/
def Rows.HasShape {α : Type} : {n : Nat} → List Nat → Rows α n → Prop
  | 0, shape, _ => shape = []
  | _ + 1, [], _ => False
  | _ + 1, k :: shape, xs => List.length xs = k ∧ ∀ x, List.Mem x xs → Rows.HasShape shape x

/-- The considered output bins of an input bin. -/
def InputBin.range (b : InputBin E) : Int × Int := (b.offset, b.offset + b.nbin)

/-- The contents of output bin `p`: the events assigned to it, input bin by input bin. -/
def binContent {n : Nat} (rows : Rows (InputBin E) n) (p : Int) : List E :=
  rows.flat.flatMap fun b => b.assigned p

/-- The contents of all output bins, for all positions that are not rebinned. -/
def binContents {n : Nat} (length : Nat) (spans : List (Rows (InputBin E) n)) : List (List E) :=
  spans.flatMap fun s => (List.range length).map fun p => binContent s (p : Nat)

end Scipp.Binning
