import Verif.Model.AssertSame
import Mathlib.Data.List.Nodup
/-!
What it means for objects to be identical: dims with their order, units, dtypes, values and variances, coords, masks and attrs with their alignment; the events of every bin.
-/
namespace Scipp.AssertSame
open Scipp

/-- The same names, with related entries. -/
def SameMap {α : Type} (R : α → α → Prop) (a b : List (Nat × α)) : Prop :=
  (a.map (·.1)).Perm (b.map (·.1)) ∧ ∀ n x y, (n, x) ∈ a → (n, y) ∈ b → R x y

/-- The same columns. -/
def Table.Same (a b : Table) : Prop := a.data = b.data ∧ SameMap Eq a.coords b.coords ∧ SameMap Eq a.masks b.masks

/-- The same variables. -/
def Data.Same : Data → Data → Prop
  | .dense a, .dense b => a = b
  | .binned s c t, .binned s' c' t' => s = s' ∧ c = c' ∧ t.Same t'
  | _, _ => False

/-- The same data, coords, masks, and attrs. -/
def Arr.Same (a b : Arr) : Prop :=
  a.data.Same b.data ∧ SameMap (fun x y => x.1.Same y.1 ∧ x.2 = y.2) a.coords b.coords ∧ SameMap (fun x y => x.1.Same y.1 ∧ x.2 = y.2) a.masks b.masks ∧
    SameMap (fun x y => x.1.Same y.1 ∧ x.2 = y.2) a.attrs b.attrs

/-- The same items and coords. -/
def Set'.Same (a b : Set') : Prop := SameMap Arr.Same a.items b.items ∧ SameMap (fun x y => x.1.Same y.1 ∧ x.2 = y.2) a.coords b.coords

/-- Objects are identical. -/
def Obj.Same : Obj → Obj → Prop
  | .var a, .var b => a.Same b
  | .arr a, .arr b => a.Same b
  | .set a, .set b => a.Same b
  | _, _ => False

/-- Labels of dims are unique. -/
def Dense.WF (d : Dense) : Prop := (d.sizes.map (·.1)).Nodup

/-- Names are unique. -/
def Unique {α : Type} (m : List (Nat × α)) : Prop := (m.map (·.1)).Nodup

/-- A table: columns have one dim. -/
structure Table.WF (t : Table) : Prop where
  coords : Unique t.coords
  masks : Unique t.masks
  one : ∀ e ∈ t.coords ++ t.masks, e.2.1.sizes.length = 1

/-- Labels and names are unique. -/
def Data.WF : Data → Prop
  | .dense d => d.WF
  | .binned s _ t => (s.map (·.1)).Nodup ∧ t.WF

/-- Names are unique. -/
structure Arr.WF (a : Arr) : Prop where
  data : a.data.WF
  coords : Unique a.coords ∧ ∀ e ∈ a.coords, e.2.1.WF
  masks : Unique a.masks ∧ ∀ e ∈ a.masks, e.2.1.WF
  attrs : Unique a.attrs ∧ ∀ e ∈ a.attrs, e.2.1.WF

/-- Names are unique, and each item has the coords of the dataset. -/
structure Set'.WF (s : Set') : Prop where
  items : Unique s.items ∧ ∀ e ∈ s.items, e.2.WF
  coords : ∀ e ∈ s.items, e.2.coords = s.coords

/-- Well-formed objects. -/
def Obj.WF : Obj → Prop
  | .var a => a.WF
  | .arr a => a.WF
  | .set a => a.WF

/-- The dims have the same order, and bins have the same number of events (what `assert_identical` does not look at). -/
def Data.Aligned : Data → Data → Prop
  | .dense a, .dense b => a.sizes.map (·.1) = b.sizes.map (·.1)
  | .binned s c t, .binned s' c' t' => s.map (·.1) = s'.map (·.1) ∧ c = c' ∧
      t.data.sizes = t'.data.sizes ∧ t.data.dtype = t'.data.dtype ∧ t.data.vars.isSome = t'.data.vars.isSome
  | _, _ => True

/-- The same sizes, unit, dtype, and presence of variances, which `assert_identical` does not look at for data arrays. -/
def Data.SameKind : Data → Data → Prop
  | .dense a, .dense b => a.sizes = b.sizes ∧ a.unit = b.unit ∧ a.dtype = b.dtype ∧ a.vars.isSome = b.vars.isSome
  | .binned s c t, .binned s' c' t' => s = s' ∧ c = c' ∧
      t.data.sizes = t'.data.sizes ∧ t.data.unit = t'.data.unit ∧ t.data.dtype = t'.data.dtype ∧ t.data.vars.isSome = t'.data.vars.isSome
  | _, _ => True

/-- Entries with the same name are aligned. -/
def AlignedMeta (a b : Meta) : Prop := ∀ n x y, (n, x) ∈ a → (n, y) ∈ b → x.1.Aligned y.1

/-- What `assert_identical` does not look at is the same. -/
structure Arr.Aligned (a b : Arr) : Prop where
  data : a.data.SameKind b.data
  coords : AlignedMeta a.coords b.coords
  masks : AlignedMeta a.masks b.masks
  attrs : AlignedMeta a.attrs b.attrs

/-- What `assert_identical` does not look at is the same. For datasets this includes the presence of items. -/
def Obj.Aligned : Obj → Obj → Prop
  | .var a, .var b => a.Aligned b
  | .arr a, .arr b => a.Aligned b
  | .set a, .set b => a.items ≠ [] ∧ ∀ n x y, (n, x) ∈ a.items → (n, y) ∈ b.items → x.Aligned y
  | _, _ => True

end Scipp.AssertSame
