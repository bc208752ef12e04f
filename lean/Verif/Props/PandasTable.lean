import Verif.Lemmas.PandasTable
/-!
C125: tables of pandas.
-/
namespace Scipp.Props
open Scipp Scipp.PandasTable

/-- **C125** A header `name[unit]` without other opening brackets: the name without spaces at its end, and the unit; the default unit if there is nothing between the brackets; the full header and no unit if the unit is not valid. -/
theorem C125_header {U : Type} (parse : List Char → Option U) (name u : List Char) (hn : '[' ∉ name) (hu : '[' ∉ u) :
    ((∀ c ∈ u, c.isWhitespace = true) → parseBracket parse (name ++ '[' :: (u ++ [']'])) = (rstrip name, .default)) ∧
    ((∃ c ∈ u, c.isWhitespace = false) →
      (∀ v, parse u = some v → parseBracket parse (name ++ '[' :: (u ++ [']'])) = (rstrip name, .unit v)) ∧
      (parse u = none → parseBracket parse (name ++ '[' :: (u ++ [']'])) = (name ++ '[' :: (u ++ [']']), .none))) := by
  unfold parseBracket
  rw [matchHeader_append name u hn hu]
  simp only
  refine ⟨fun h => by rw [if_pos (List.all_eq_true.2 h)], ?_⟩
  rintro ⟨c, hc, hw⟩
  have hall : ¬ u.all Char.isWhitespace = true := by
    rw [List.all_eq_true]
    intro h
    rw [h c hc] at hw
    cases hw
  rw [if_neg hall]
  exact ⟨fun v hv => by rw [hv], fun hv => by rw [hv]⟩

/-- **C125** What is written as `name [unit]` is read as this name and unit. -/
theorem C125_roundtrip {U : Type} (parse : List Char → Option U) (name u : List Char) (v : U) (hn : '[' ∉ name) (hl : ∀ c, name.getLast? = some c → c.isWhitespace = false) (hu : '[' ∉ u)
    (hw : ∃ c ∈ u, c.isWhitespace = false) (hv : parse u = some v) : parseBracket parse (name ++ ' ' :: '[' :: (u ++ [']'])) = (name, .unit v) := by
  have := ((C125_header parse (name ++ [' ']) u (by simp [hn]) hu).2 hw).1 v hv
  rw [rstrip_space name hl] at this
  simpa using this

/-- **C125** A header without opening bracket is the name, without unit. -/
theorem C125_no_unit {U : Type} (parse : List Char → Option U) (head : List Char) (h : '[' ∉ head) : parseBracket parse head = (head, .none) := by
  unfold parseBracket matchHeader
  rw [dropWhile_nil head h]

/-- **C125** (partial: not if a newline follows the closing bracket) Any other header is the name as a whole, without unit. -/
theorem C125_other_partial {U : Type} (parse : List Char → Option U) (head : List Char)
    (h : ∀ name u, '[' ∉ name → '[' ∉ u → head ≠ name ++ '[' :: (u ++ [']'])) (hnl : ∀ name u, head ≠ name ++ '[' :: (u ++ [']', '\n'])) : parseBracket parse head = (head, .none) := by
  unfold parseBracket
  split
  · rfl
  · rename_i name hm
    rw [(matchHeader_none hm).1]
  · rename_i name u hm
    obtain ⟨h1, h2, h3 | h3⟩ := matchHeader_some hm
    · exact absurd h3 (h name u h1 h2)
    · exact absurd h3 (hnl name u)

/-- **C125** fails for a newline after the closing bracket: the header does not have the form `name [unit]`, but is taken as if it had. -/
theorem C125_wrong_newline : parseBracket (fun u => if u = ['m'] then some () else none) ['a', ' ', '[', 'm', ']', '\n'] = (['a'], .unit ()) := by decide

/-- **C125** (partial: the names found in the headers are distinct) Every column of the table is in the dataset exactly once, with the unit of its header and its own values: as data if it is among the columns given, in this order, or if none are given;
otherwise as coord. -/
theorem C125_columns_partial {U V : Type} [DecidableEq V] (header : List Char → List Char × ColUnit U) (incl : Bool) (i : Index V) (cols : List (List Char × V)) (dataCols : Option (List (List Char))) (t : Table U V)
    (hn : (cols.map fun c => (header c.1).1).Nodup) (h : fromFrame header incl i cols dataCols = .ok t) :
    (t.data ++ t.coords).Perm (cols.map fun c => ⟨(header c.1).1, (header c.1).2, c.2⟩) ∧
    (dataCols = none → t.coords = []) ∧ ∀ names, dataCols = some names → t.data.map (·.name) = names := by
  have hn' : ((cols.map fun c => (⟨(header c.1).1, (header c.1).2, c.2⟩ : Column U V)).map (·.name)).Nodup := by
    rw [List.map_map]
    exact hn
  unfold fromFrame at h
  simp only [dictOf_distinct _ hn'] at h
  cases dataCols with
  | none =>
    obtain rfl := Except.ok.inj h
    exact ⟨by simp, fun _ => rfl, fun names he => by cases he⟩
  | some names =>
    simp only at h
    split at h
    · cases h
    rename_i data coords hp
    split at h
    · cases h
    obtain rfl := Except.ok.inj h
    obtain ⟨h1, h2⟩ := popAll_ok _ _ _ _ hn' hp
    exact ⟨h1, fun he => (by cases he), fun names' he => by rw [← Option.some.inj he]; exact h2⟩

/-- **C125** The conversion succeeds if the columns given exist, each given once, and no header gives the name of the index. -/
theorem C125_succeeds {U V : Type} [DecidableEq V] (header : List Char → List Char × ColUnit U) (incl : Bool) (i : Index V) (cols : List (List Char × V)) (names : List (List Char))
    (hn : (cols.map fun c => (header c.1).1).Nodup) (hd : names.Nodup) (hs : ∀ n ∈ names, ∃ c ∈ cols, (header c.1).1 = n) (hi : ∀ c ∈ cols, (header c.1).1 ≠ i.name) :
    ∃ t, fromFrame header incl i cols (some names) = .ok t := by
  have hn' : ((cols.map fun c => (⟨(header c.1).1, (header c.1).2, c.2⟩ : Column U V)).map (·.name)).Nodup := by
    rw [List.map_map]
    exact hn
  obtain ⟨d, rest, hp⟩ := popAll_succeeds names (cols.map fun c => (⟨(header c.1).1, (header c.1).2, c.2⟩ : Column U V)) hd (fun n hm => by
    obtain ⟨c, hc, hcn⟩ := hs n hm
    rw [List.map_map]
    exact List.mem_map.2 ⟨c, hc, hcn⟩)
  refine ⟨⟨d, rest, indexOf incl i d⟩, ?_⟩
  unfold fromFrame
  simp only [dictOf_distinct _ hn', hp]
  rw [if_neg]
  rw [Bool.and_eq_true, not_and]
  intro _ ha
  obtain ⟨c, hc, hcn⟩ := List.any_eq_true.1 ha
  rw [Bool.and_eq_true, decide_eq_true_iff] at hcn
  have hmem := (popAll_ok _ _ _ _ hn' hp).1.subset (List.mem_append_right d hc)
  obtain ⟨c', hc', rfl⟩ := List.mem_map.1 hmem
  exact hi c' hc' hcn.1

/-- **C125** (partial: there is some data) The index of the rows is a coord of the dataset, unless it is just the numbers of the rows and not wanted. -/
theorem C125_index_partial {U V : Type} [DecidableEq V] (header : List Char → List Char × ColUnit U) (incl : Bool) (i : Index V) (cols : List (List Char × V)) (dataCols : Option (List (List Char))) (t : Table U V)
    (h : fromFrame header incl i cols dataCols = .ok t) (hd : t.data ≠ []) : (t.index = some (i.name, i.values) ↔ incl = true ∨ i.trivial = false) ∧ (t.index = none ↔ incl = false ∧ i.trivial = true) := by
  have hi : t.index = indexOf incl i t.data := by
    unfold fromFrame at h
    simp only at h
    split at h
    · obtain rfl := Except.ok.inj h; rfl
    · split at h
      · cases h
      · split at h
        · cases h
        · obtain rfl := Except.ok.inj h; rfl
  have hne : t.data.isEmpty = false := by
    cases ht : t.data with
    | nil => exact absurd ht hd
    | cons a l => rfl
  rw [hi]
  unfold indexOf
  rw [hne]
  cases incl <;> cases i.trivial <;> simp

/-- **C125** fails for columns whose headers give the same name: they are never both in the dataset, i.e., a column is lost without any error. -/
theorem C125_wrong_lost {U V : Type} [DecidableEq V] (header : List Char → List Char × ColUnit U) (incl : Bool) (i : Index V) (cols : List (List Char × V)) (a b : List Char × V) (ha : a ∈ cols) (hb : b ∈ cols)
    (hab : (header a.1).1 = (header b.1).1) (hne : (header a.1).2 ≠ (header b.1).2 ∨ a.2 ≠ b.2) :
    ∃ t, fromFrame header incl i cols none = .ok t ∧ t.coords = [] ∧
      ¬ ((⟨(header a.1).1, (header a.1).2, a.2⟩ : Column U V) ∈ t.data ∧ (⟨(header b.1).1, (header b.1).2, b.2⟩ : Column U V) ∈ t.data) := by
  refine ⟨_, rfl, rfl, ?_⟩
  rintro ⟨h1, h2⟩
  have := List.inj_on_of_nodup_map (dictOf_nodup _) h1 h2 hab
  rw [Column.mk.injEq] at this
  rcases hne with h | h
  · exact h this.2.1
  · exact h this.2.2

/-- **C125** fails if all columns are coords: the index is lost even if it is wanted. -/
theorem C125_wrong_index {U V : Type} [DecidableEq V] (header : List Char → List Char × ColUnit U) (incl : Bool) (i : Index V) (cols : List (List Char × V)) :
    ∃ t, fromFrame header incl i cols (some []) = .ok t ∧ t.index = none := by
  refine ⟨⟨[], dictOf (cols.map fun c => ⟨(header c.1).1, (header c.1).2, c.2⟩), none⟩, ?_, rfl⟩
  simp [fromFrame, popAll, indexOf]

/-! Cases meeting the hypotheses. -/

/-- The units `m` and `s`. -/
def c125Unit (u : List Char) : Option Char := match u with
  | ['m'] => some 'm'
  | ['s'] => some 's'
  | _ => none

example : parseBracket c125Unit "time [s]".toList = ("time".toList, .unit 's') :=
  C125_roundtrip c125Unit "time".toList ['s'] 's' (by decide) (by decide) (by decide) (by decide) rfl

example : parseBracket c125Unit "a [b] [m]".toList = ("a [b] [m]".toList, .none) := by decide

example : parseBracket c125Unit "a [x]".toList = ("a [x]".toList, .none) :=
  ((C125_header c125Unit ['a', ' '] ['x'] (by decide) (by decide)).2 (by decide)).2 rfl

example : ∃ t, fromFrame (parseBracket c125Unit) false ⟨['r'], 5, false⟩ [("a [m]".toList, 1), ("b[s]".toList, 2), (['c'], 3)] (some [['b']]) = .ok t ∧ t.data = [⟨['b'], .unit 's', 2⟩] ∧
    t.coords = [⟨['a'], .unit 'm', 1⟩, ⟨['c'], .none, 3⟩] ∧ t.index = some (['r'], 5) := ⟨_, rfl, by decide, by decide, by decide⟩

example : ∃ t, fromFrame (parseBracket c125Unit) false ⟨['r'], 5, false⟩ [("a [m]".toList, 1), ("a [s]".toList, 2)] none = .ok t ∧ t.data = [⟨['a'], .unit 's', 2⟩] := ⟨_, rfl, by decide⟩

example := C125_succeeds (parseBracket c125Unit) true ⟨['r'], 5, true⟩ [("a [m]".toList, 1), ("b[s]".toList, 2)] [['b'], ['a']] (by decide) (by decide) (by decide) (by decide)

end Scipp.Props
