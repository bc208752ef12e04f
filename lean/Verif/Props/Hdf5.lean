import Verif.Lemmas.Hdf5

/-!
# C115: saving to and loading from HDF5 files
-/

namespace Scipp.Props

open Scipp.Hdf5 Scipp.Hdf5.Spec

variable {V : Type}

/-- **C115.** An object that has been saved and loaded is the same, with all levels of nested groups, in the same order, with names and flags. Missing: more than a thousand elements
(`C115_order`), strings with several dimensions (`C115_wrong_strings`), binned variables that are not aligned (`C115_wrong_unaligned`), data arrays in groups with other names
(`C115_wrong_name`), items of datasets called `coords` (`C115_wrong_coords`). -/
theorem C115_partial (x : Thing V) (hf : Fine x) (hk : KeptThing x) : saveAndLoad x = .ok x := by
  have hl := loadedThing_kept hk
  rcases write_fine hf with ⟨h1, -⟩ | ⟨n, y, h1, h2, h3, -⟩
  · rw [hl] at h1; cases h1
  · rw [hl] at h1
    cases h1
    simp only [saveAndLoad, h2, h3]

/-- A group with a data array with coordinates and masks, a dataset, a nested group and text, with names that need to be escaped. -/
example : saveAndLoad (V := Nat) (.group (.cons [97, 46, 98] (.array ⟨⟨.bins, [2, 3], true, 1⟩, [([120], ⟨.plain, [3], false, 2⟩), ([121], ⟨.string, [2], true, 3⟩)], [([955], ⟨.plain, [], true, 4⟩)], [], [97, 46, 98]⟩)
      (.cons [1] (.dataset [([120], ⟨.plain, [3], true, 2⟩)] [([5], ⟨⟨.plain, [3], true, 8⟩, [([120], ⟨.plain, [3], true, 2⟩)], [], [], [5]⟩)])
        (.cons [0] (.group (.cons [] (.var ⟨.string, [], true, 9⟩) .nil)) .nil)))) =
    .ok (.group (.cons [97, 46, 98] (.array ⟨⟨.bins, [2, 3], true, 1⟩, [([120], ⟨.plain, [3], false, 2⟩), ([121], ⟨.string, [2], true, 3⟩)], [([955], ⟨.plain, [], true, 4⟩)], [], [97, 46, 98]⟩)
      (.cons [1] (.dataset [([120], ⟨.plain, [3], true, 2⟩)] [([5], ⟨⟨.plain, [3], true, 8⟩, [([120], ⟨.plain, [3], true, 2⟩)], [], [], [5]⟩)])
        (.cons [0] (.group (.cons [] (.var ⟨.string, [], true, 9⟩) .nil)) .nil)))) :=
  C115_partial _ (by simp [Fine, FineItems, FineArr, FineVars, FineVar, FineEntry, count, supported, coordsText])
    (by simp [KeptThing, KeptItems, KeptArr, Kept, NameFits])

/-- **C115.** What is found after loading if some parts are not kept: elements of types that cannot be saved are left out, without an effect on others. -/
theorem C115_loaded_partial (x y : Thing V) (hf : Fine x) (hy : loadedThing x = some y) : saveAndLoad x = .ok y := by
  rcases write_fine hf with ⟨h1, -⟩ | ⟨n, z, h1, h2, h3, -⟩
  · rw [hy] at h1; cases h1
  · rw [hy] at h1
    cases h1
    simp only [saveAndLoad, h2, h3]

example : saveAndLoad (V := Nat) (.group (.cons [1] .other (.cons [2] (.var ⟨.unsupported, [], true, 1⟩) (.cons [3] (.array
      ⟨⟨.plain, [3], true, 1⟩, [([120], ⟨.unsupported, [3], true, 2⟩), ([121], ⟨.plain, [3], false, 3⟩)], [], [], [3]⟩) .nil)))) =
    .ok (.group (.cons [3] (.array ⟨⟨.plain, [3], true, 1⟩, [([121], ⟨.plain, [3], false, 3⟩)], [], [], [3]⟩) .nil)) :=
  C115_loaded_partial _ _ (by simp [Fine, FineItems, FineArr, FineVars, FineVar, count])
    (by simp [loadedThing, loadedItems, loadedArr, loadedVars, loaded, supported, named])

/-- **C115.** The elements of a mapping are all found again, and they are found in the same order if and only if there are at most a thousand of them, whatever their names are. -/
theorem C115_order (l : List (Text × Var V)) (hf : ∀ x ∈ l, FineVar x.2) (hk : ∀ x ∈ l, Kept x.2) (hn : (l.map (·.1)).Nodup) :
    ∃ ms r, writeVars [] l 0 = .ok ms ∧ readVars ms = .ok r ∧ r.Perm l ∧ (r = l ↔ l.length ≤ 1000) := by
  obtain ⟨ms, h1, h2, h3, h4⟩ := writeVars_at l 0 hf hk
  refine ⟨ms, visit ms, h1, by simp only [readVars, readMapping, h2], h3 ▸ visit_perm ms, fun h => ?_, fun h => ?_⟩
  · by_contra hl
    exact visit_long hn h3 h4 (by omega) h
  · obtain ⟨ms', g1, g2, -⟩ := writeVars_fine ⟨h, hf⟩ [] (fun _ _ => rfl)
    rw [h1] at g1
    cases g1
    simp only [readVars, readMapping, h2, loadedVars_kept hk] at g2
    exact Except.ok.inj g2

example : ∃ ms r, writeVars [] ((List.range 2000).map fun i => ([i], (⟨.plain, [], true, i⟩ : Var Nat))) 0 = .ok ms ∧ readVars ms = .ok r ∧
    r ≠ (List.range 2000).map fun i => ([i], (⟨.plain, [], true, i⟩ : Var Nat)) := by
  obtain ⟨ms, r, h1, h2, -, h4⟩ := C115_order ((List.range 2000).map fun i => ([i], (⟨.plain, [], true, i⟩ : Var Nat)))
    (by intro x hx; obtain ⟨i, -, rfl⟩ := List.mem_map.1 hx; exact fun h => by cases h)
    (by intro x hx; obtain ⟨i, -, rfl⟩ := List.mem_map.1 hx; simp [Kept])
    (by rw [List.map_map]; exact (List.nodup_range).map (fun a b h => by simpa using h))
  exact ⟨ms, r, h1, h2, fun h => by simpa using h4.1 h⟩

/-- **C115.** The names of members are distinct and valid: elements with distinct indices have distinct names, which are ASCII without periods and slashes. -/
theorem C115_names (a b : Text) (i j : Nat) : (elemName a i = elemName b j → i = j) ∧ ∀ c ∈ elemName a i, c < 128 ∧ c ≠ 46 ∧ c ≠ 47 :=
  ⟨elem_inj, fun _ h => elem_chars h⟩

/-- `elem_012_a&#47;&#955;` -/
example : elemName [97, 47, 955] 12 = [101, 108, 101, 109, 95, 48, 49, 50, 95, 97, 38, 35, 52, 55, 59, 38, 35, 57, 53, 53, 59] := by
  simp [elemName, pad3, decimal, escape]

/-- **C115 fails** for data arrays in data groups: the name of the item replaces the name of the array. -/
theorem C115_wrong_name (key : Text) (a : Arr V) (hf : FineArr a) (hk : KeptArr a) :
    saveAndLoad (.group (.cons key (.array a) .nil)) = .ok (.group (.cons key (.array { a with name := key }) .nil)) := by
  refine C115_loaded_partial _ _ (by simp [Fine, FineItems, count, hf]) ?_
  have : loadedThing (.array a) = some (.array a) := loadedThing_kept (by simpa only [KeptThing] using hk)
  simp only [loadedThing, loadedItems] at this ⊢
  simp only [this, named]

example : saveAndLoad (V := Nat) (.group (.cons [1] (.array ⟨⟨.plain, [], true, 1⟩, [], [], [], [2]⟩) .nil)) ≠
    .ok (.group (.cons [1] (.array ⟨⟨.plain, [], true, 1⟩, [], [], [], [2]⟩) .nil)) := by
  rw [C115_wrong_name _ _ (by simp [FineArr, FineVar, FineVars]) (by simp [KeptArr, Kept])]
  simp

/-- **C115 fails** for binned variables that are not aligned. -/
theorem C115_wrong_unaligned (v : Var V) (h : v.kind = .bins) (ha : v.aligned = false) :
    saveAndLoad (.var v) = .ok (.var { v with aligned := true }) ∧ Thing.var { v with aligned := true } ≠ .var v := by
  obtain ⟨k, sh, al, r⟩ := v
  simp only at h ha
  subst h ha
  exact ⟨rfl, by simp⟩

example : saveAndLoad (V := Nat) (.var ⟨.bins, [3], false, 7⟩) = .ok (.var ⟨.bins, [3], true, 7⟩) := (C115_wrong_unaligned _ rfl rfl).1

/-- **C115 fails** for strings with two or more dimensions. -/
theorem C115_wrong_strings (v : Var V) (h : v.kind = .string) (hs : 2 ≤ v.shape.length) (h0 : 0 ∉ v.shape) : ∃ e, saveAndLoad (.var v) = .error e := by
  obtain ⟨k, sh, al, r⟩ := v
  simp only at h hs h0
  subst h
  cases sh with
  | nil => simp at hs
  | cons n t =>
    by_cases hv : n < volume (n :: t)
    · exact ⟨.outOfRange, by simp only [saveAndLoad, write, writeVar, hv, if_true]⟩
    · exact ⟨.dtype, by simp only [saveAndLoad, write, writeVar, hv, if_false, Hdf5.read, readVar, hs, volume_pos h0, and_self, if_true]⟩

example : saveAndLoad (V := Nat) (.var ⟨.string, [2, 3], true, 7⟩) = .error .outOfRange := rfl

example : saveAndLoad (V := Nat) (.var ⟨.string, [2, 1], true, 7⟩) = .error .dtype := rfl

/-- **C115 fails** for every dataset with an item called `coords`. -/
theorem C115_wrong_coords (coords : List (Text × Var V)) (items : List (Text × Arr V)) (x : Text × Arr V) (hx : x ∈ items)
    (hn : x.2.name = coordsText) : ∃ e, saveAndLoad (.dataset coords items) = .error e := by
  refine dataset_error hx fun cs w _ => ⟨.dtype, ?_⟩
  cases w <;> simp only [readEntry, hn, if_true]

example : saveAndLoad (V := Nat) (.dataset [] [(coordsText, ⟨⟨.plain, [], true, 1⟩, [], [], [], coordsText⟩)]) = .error .dtype := rfl

/-- **C115 fails** for every dataset with an item of a type that cannot be saved: nothing of the dataset can be read. -/
theorem C115_wrong_item (coords : List (Text × Var V)) (items : List (Text × Arr V)) (x : Text × Arr V) (hx : x ∈ items)
    (hk : x.2.data.kind = .unsupported) : ∃ e, saveAndLoad (.dataset coords items) = .error e := by
  refine dataset_error hx fun cs w hw => ?_
  have : writeVar x.2.data = .ok none := by simp only [writeVar, hk]
  simp only [writeArr, this] at hw
  cases hw
  simp only [readEntry]
  split
  · exact ⟨_, rfl⟩
  · exact ⟨_, rfl⟩

example : saveAndLoad (V := Nat) (.dataset [] [([1], ⟨⟨.plain, [], true, 1⟩, [], [], [], [1]⟩), ([2], ⟨⟨.unsupported, [], true, 1⟩, [], [], [], [2]⟩)]) = .error .runtime := rfl

end Scipp.Props
