import Verif.Model.FormatSpec
import Mathlib.Data.List.TakeWhile
/-!
C130: format of variables as text.
-/
namespace Scipp.Props
open Scipp Scipp.FormatSpec

/-- Text of the selection of elements. -/
def c130Sel : Option Selection → List Char
  | some .edges => ['^']
  | some .begin => ['<']
  | some .end_ => ['>']
  | none => []

/-- Text of the length, given by digits. -/
def c130Len : Option (List Char) → List Char
  | some ds => '#' :: ds
  | none => []

/-- Text of the format of elements. -/
def c130Nested : Option (List Char) → List Char
  | some t => ':' :: t
  | none => []

/-- A format specification as text: selection, length, type and format of elements. -/
def c130Text (sel : Option Selection) (ds : Option (List Char)) (compact : Bool) (nested : Option (List Char)) : List Char :=
  c130Sel sel ++ (c130Len ds ++ ((if compact then ['c'] else []) ++ c130Nested nested))

/-- The number written with decimal digits. -/
def c130Number (ds : List Char) : Nat := Nat.ofDigitChars 10 ds 0

/-- Digits, at least one. -/
def c130Digits (ds : List Char) : Prop := ds ≠ [] ∧ ∀ c ∈ ds, c.isDigit = true

/-- A text without newline. -/
def c130Line (t : List Char) : Prop := ∀ c ∈ t, c ≠ '\n'

theorem takeNested_ok (s : List Char) (nested : Option (List Char)) : takeNested s = some nested ↔
    (∀ t, nested = some t → c130Line t) ∧ ∃ tail, (tail = [] ∨ tail = ['\n']) ∧ s = c130Nested nested ++ tail := by
  have hend : ∀ s : List Char, atEnd s = true ↔ s = [] ∨ s = ['\n'] := by intro s; simp [atEnd]
  by_cases hc : ∃ rest, s = ':' :: rest
  · obtain ⟨rest, rfl⟩ := hc
    simp only [takeNested]
    by_cases h : atEnd (rest.dropWhile (· != '\n')) = true
    · rw [if_pos h]
      constructor
      · intro he
        rw [← Option.some.inj he]
        refine ⟨?_, rest.dropWhile (· != '\n'), (hend _).1 h, ?_⟩
        · intro t ht c hc
          rw [← Option.some.inj ht] at hc
          simpa using List.mem_takeWhile_imp hc
        · simp [c130Nested, List.takeWhile_append_dropWhile]
      · rintro ⟨h1, tail, ht, hs⟩
        cases nested with
        | none =>
          rcases ht with rfl | rfl
          · cases hs
          · cases hs
        | some t =>
          have hs' : rest = t ++ tail := (List.cons.inj hs).2
          have hl := h1 t rfl
          subst hs'
          rw [List.takeWhile_append_of_pos (by intro c hc; simpa using hl c hc)]
          rcases ht with rfl | rfl
          · simp
          · simp
    · rw [if_neg h]
      constructor
      · intro he; cases he
      · rintro ⟨h1, tail, ht, hs⟩
        exfalso
        apply h
        cases nested with
        | none =>
          rcases ht with rfl | rfl
          · cases hs
          · cases hs
        | some t =>
          have hs' : rest = t ++ tail := (List.cons.inj hs).2
          have hl := h1 t rfl
          subst hs'
          rw [List.dropWhile_append_of_pos (by intro c hc; simpa using hl c hc), hend]
          rcases ht with rfl | rfl
          · left; rfl
          · right; rfl
  · have heq : takeNested s = if atEnd s then some none else none := by
      cases s with
      | nil => rfl
      | cons c rest =>
        have : c ≠ ':' := fun h => hc ⟨rest, by rw [h]⟩
        unfold takeNested
        split
        · rename_i h; cases h; exact absurd rfl this
        · rfl
    rw [heq]
    by_cases h : atEnd s = true
    · rw [if_pos h]
      constructor
      · intro he
        rw [← Option.some.inj he]
        exact ⟨fun t ht => (by cases ht), s, (hend s).1 h, rfl⟩
      · rintro ⟨_, tail, _, hs⟩
        cases nested with
        | none => rfl
        | some t => exact absurd ⟨t ++ tail, hs⟩ hc
    · rw [if_neg h]
      constructor
      · intro he; cases he
      · rintro ⟨_, tail, ht, hs⟩
        cases nested with
        | none => exact absurd ((hend s).2 (by simpa [hs, c130Nested] using ht)) h
        | some t => exact absurd ⟨t ++ tail, hs⟩ hc

/-- The text after the selection begins with none of its characters. -/
def c130After (s : List Char) : Prop := ∀ c, s.head? = some c → c = '#' ∨ c = 'c' ∨ c = ':' ∨ c = '\n'

theorem takeSelection_append (sel : Option Selection) (rest : List Char) (h : c130After rest) :
    takeSelection (c130Sel sel ++ rest) = (sel, rest) := by
  cases sel with
  | some s => cases s <;> rfl
  | none =>
    cases rest with
    | nil => rfl
    | cons c rest =>
      rcases h c rfl with rfl | rfl | rfl | rfl <;> rfl

theorem takeLength_append (ds : Option (List Char)) (hd : ∀ t, ds = some t → c130Digits t) (rest : List Char) (h : ∀ c, rest.head? = some c → c = 'c' ∨ c = ':' ∨ c = '\n') :
    takeLength (c130Len ds ++ rest) = (ds.map c130Number, rest) := by
  cases ds with
  | some t =>
    obtain ⟨h1, h2⟩ := hd t rfl
    have hr : rest.takeWhile Char.isDigit = [] ∧ rest.dropWhile Char.isDigit = rest := by
      cases rest with
      | nil => exact ⟨rfl, rfl⟩
      | cons c rest => rcases h c rfl with rfl | rfl | rfl <;> exact ⟨rfl, rfl⟩
    simp only [c130Len, List.cons_append, takeLength]
    rw [List.takeWhile_append_of_pos h2, List.dropWhile_append_of_pos h2, hr.1, hr.2, List.append_nil, if_neg h1]
    rfl
  | none =>
    cases rest with
    | nil => rfl
    | cons c rest => rcases h c rfl with rfl | rfl | rfl <;> rfl

/-- **C130** Every text of the form described is accepted and gives its parts; a newline may follow. -/
theorem C130_accepts (sel : Option Selection) (ds : Option (List Char)) (compact : Bool) (nested : Option (List Char)) (hd : ∀ t, ds = some t → c130Digits t) (hl : ∀ t, nested = some t → c130Line t)
    (tail : List Char) (ht : tail = [] ∨ tail = ['\n']) :
    parse (c130Text sel ds compact nested ++ tail) = .ok ⟨compact, sel, ds.map c130Number, nested⟩ := by
  have hn : takeNested (c130Nested nested ++ tail) = some nested := (takeNested_ok _ _).2 ⟨hl, tail, ht, rfl⟩
  have h3head : ∀ c, (c130Nested nested ++ tail).head? = some c → c = ':' ∨ c = '\n' := by
    intro c hc
    cases nested with
    | some t => left; exact (Option.some.inj hc).symm
    | none =>
      rcases ht with rfl | rfl
      · cases hc
      · right; exact (Option.some.inj hc).symm
  have h2 : takeType ((if compact then ['c'] else []) ++ (c130Nested nested ++ tail)) = (compact, c130Nested nested ++ tail) := by
    generalize c130Nested nested ++ tail = s3 at h3head ⊢
    cases compact with
    | true => rfl
    | false =>
      cases s3 with
      | nil => rfl
      | cons c s3 => rcases h3head c rfl with rfl | rfl <;> rfl
  have h2head : ∀ c, ((if compact then ['c'] else []) ++ (c130Nested nested ++ tail)).head? = some c → c = 'c' ∨ c = ':' ∨ c = '\n' := by
    intro c hc
    cases compact with
    | true => left; exact (Option.some.inj hc).symm
    | false => right; exact h3head c hc
  have h1head : c130After (c130Len ds ++ ((if compact then ['c'] else []) ++ (c130Nested nested ++ tail))) := by
    intro c hc
    cases ds with
    | some t => left; exact (Option.some.inj hc).symm
    | none => right; exact h2head c hc
  have heq : c130Text sel ds compact nested ++ tail = c130Sel sel ++ (c130Len ds ++ ((if compact then ['c'] else []) ++ (c130Nested nested ++ tail))) := by
    simp only [c130Text, List.append_assoc]
  unfold parse
  rw [heq, takeSelection_append sel _ h1head]
  simp only
  rw [takeLength_append ds hd _ h2head]
  simp only
  rw [h2]
  simp only
  rw [hn]

theorem takeSelection_text (s : List Char) : s = c130Sel (takeSelection s).1 ++ (takeSelection s).2 := by
  cases s with
  | nil => rfl
  | cons c rest =>
    simp only [takeSelection, selectionOf]
    by_cases h1 : c = '^'
    · subst h1; rfl
    · by_cases h2 : c = '<'
      · subst h2; rfl
      · by_cases h3 : c = '>'
        · subst h3; rfl
        · simp only [if_neg h1, if_neg h2, if_neg h3]; rfl

theorem takeLength_text (s : List Char) : ∃ ds, (∀ t, ds = some t → c130Digits t) ∧ s = c130Len ds ++ (takeLength s).2 ∧ (takeLength s).1 = ds.map c130Number := by
  unfold takeLength
  split
  · rename_i rest
    simp only
    split
    · exact ⟨none, fun t ht => (by cases ht), rfl, rfl⟩
    · rename_i h
      refine ⟨some (rest.takeWhile Char.isDigit), ?_, ?_, rfl⟩
      · intro t ht
        rw [← Option.some.inj ht]
        exact ⟨h, fun c hc => List.mem_takeWhile_imp hc⟩
      · simp [c130Len, List.takeWhile_append_dropWhile]
  · exact ⟨none, fun t ht => (by cases ht), rfl, rfl⟩

theorem takeType_text (s : List Char) : s = (if (takeType s).1 then ['c'] else []) ++ (takeType s).2 := by
  unfold takeType
  split <;> rfl

/-- **C130** Every text which is accepted is of the form described, perhaps followed by a newline, and gives its parts. -/
theorem C130_form (s : List Char) (spec : Spec) (h : parse s = .ok spec) :
    ∃ ds tail, (∀ t, ds = some t → c130Digits t) ∧ (∀ t, spec.nested = some t → c130Line t) ∧ (tail = [] ∨ tail = ['\n']) ∧
      s = c130Text spec.selection ds spec.compact spec.nested ++ tail ∧ spec.length = ds.map c130Number := by
  unfold parse at h
  simp only at h
  split at h
  · cases h
  · rename_i nested hn
    obtain ⟨hl, tail, ht, h3⟩ := (takeNested_ok _ _).1 hn
    obtain ⟨ds, hd, h2, hlen⟩ := takeLength_text (takeSelection s).2
    rw [← Except.ok.inj h]
    refine ⟨ds, tail, hd, hl, ht, ?_, hlen⟩
    have h0 := takeSelection_text s
    have h4 := takeType_text (takeLength (takeSelection s).2).2
    simp only [c130Text, List.append_assoc]
    rw [← h3, ← h4, ← h2]
    exact h0

/-- **C130** The text of a format specification gives the same when it is parsed. -/
theorem C130_roundtrip (spec : Spec) (hl : ∀ t, spec.nested = some t → c130Line t) : parse (toText spec) = .ok spec := by
  have h := C130_accepts spec.selection (spec.length.map digits) spec.compact spec.nested (by
    intro t ht
    obtain ⟨n, _, rfl⟩ := Option.map_eq_some_iff.1 ht
    exact ⟨Nat.toDigits_ne_nil, fun c hc => Nat.isDigit_of_mem_toDigits (by decide) (by decide) hc⟩) hl [] (Or.inl rfl)
  have hlen : (spec.length.map digits).map c130Number = spec.length := by
    cases spec.length with
    | none => rfl
    | some n => simp [c130Number, digits, Nat.ofDigitChars_ten_toDigits]
  rw [hlen, List.append_nil] at h
  have ht : toText spec = c130Text spec.selection (spec.length.map digits) spec.compact spec.nested := by
    obtain ⟨c, sel, len, nested⟩ := spec
    simp only [toText, c130Text, List.append_assoc]
    cases sel with
    | none => cases len <;> cases nested <;> rfl
    | some s => cases s <;> cases len <;> cases nested <;> rfl
  rw [ht, h]

theorem pySlice_first {V : Type} (data : List V) (k : Nat) (h : k ≤ data.length) : pySlice data none (some (k : Int)) = data.take k := by
  unfold pySlice
  simp only [Option.getD_none, Option.getD_some]
  have h1 : (if (0 : Int) < 0 then max 0 (0 + (data.length : Int)) else min 0 (data.length : Int)) = 0 := by rw [if_neg (by omega)]; omega
  have h2 : (if (k : Int) < 0 then max 0 ((k : Int) + (data.length : Int)) else min (k : Int) (data.length : Int)) = k := by rw [if_neg (by omega)]; omega
  rw [h1, h2]
  simp

theorem pySlice_last {V : Type} (data : List V) (k : Nat) (hk : 0 < k) (h : k ≤ data.length) : pySlice data (some (-(k : Int))) none = data.drop (data.length - k) := by
  unfold pySlice
  simp only [Option.getD_none, Option.getD_some]
  have h1 : (if -(k : Int) < 0 then max 0 (-(k : Int) + (data.length : Int)) else min (-(k : Int)) (data.length : Int)) = ((data.length - k : Nat) : Int) := by rw [if_pos (by omega)]; omega
  have h2 : (if (data.length : Int) < 0 then max 0 ((data.length : Int) + (data.length : Int)) else min (data.length : Int) (data.length : Int)) = data.length := by rw [if_neg (by omega)]; omega
  rw [h1, h2, Int.toNat_natCast]
  refine List.take_of_length_le ?_
  rw [List.length_drop]
  omega

/-- **C130** What is shown of more elements than the length: the first ones, the last ones, or the first and the last ones, in order, with dots for those left out. -/
theorem C130_selected {V : Type} (data : List V) (length : Nat) (h : length < data.length) :
    select data .begin length = (data.take length).map .elem ++ [.dots] ∧
    select data .end_ length = [.dots] ++ (data.drop (data.length - length)).map .elem ∧
    select data .edges length = (data.take (length / 2)).map .elem ++ [.dots] ++ (data.drop (data.length - (length - length / 2))).map .elem := by
  unfold select
  have hn : ¬ data.length ≤ length := by omega
  have hzero : part data (some 0, some 0) = [] := if_pos rfl
  have hpart : ∀ r, r ≠ (some 0, some 0) → part data r = (pySlice data r.1 r.2).map .elem := fun r hr => if_neg hr
  simp only [if_neg hn]
  by_cases h0 : length = 0
  · subst h0
    simp
  · simp only [if_neg h0, elementRanges]
    refine ⟨?_, ?_, ?_⟩
    · rw [hpart _ (by simp), hzero, List.append_nil, pySlice_first data length (by omega)]
    · rw [hzero, hpart _ (by simp), pySlice_last data length (by omega) (by omega)]
      rfl
    · have h1 : (length : Int) / 2 = ((length / 2 : Nat) : Int) := by omega
      have h2 : -(length : Int) / 2 = -((length - length / 2 : Nat) : Int) := by omega
      rw [hpart _ (by simp), hpart _ (by simp), h1, h2, pySlice_first data (length / 2) (by omega), pySlice_last data (length - length / 2) (by omega) (by omega)]

/-- **C130** All elements are shown if there are not more than the length. -/
theorem C130_all {V : Type} (data : List V) (sel : Selection) (length : Nat) (h : data.length ≤ length) : select data sel length = data.map .elem := by
  unfold select
  rw [if_pos h]

/-- **C130** As many elements are shown as requested, or all if there are less; there are dots if and only if some are left out. -/
theorem C130_count {V : Type} [DecidableEq V] (data : List V) (sel : Selection) (length : Nat) :
    ((select data sel length).filter (· != .dots)).length = min length data.length ∧ (.dots ∈ select data sel length ↔ length < data.length) := by
  have hf : ∀ l : List V, (l.map Item.elem).filter (· != .dots) = l.map Item.elem := by
    intro l
    refine List.filter_eq_self.2 ?_
    intro x hx
    obtain ⟨v, _, rfl⟩ := List.mem_map.1 hx
    rfl
  have hd : ∀ l : List V, Item.dots ∉ l.map Item.elem := by
    intro l hx
    obtain ⟨v, _, hv⟩ := List.mem_map.1 hx
    cases hv
  have hdots : ([Item.dots] : List (Item V)).filter (· != .dots) = [] := rfl
  by_cases h : data.length ≤ length
  · rw [C130_all data sel length h, hf, List.length_map]
    exact ⟨by omega, fun hx => absurd hx (hd data), fun hx => by omega⟩
  · obtain ⟨h1, h2, h3⟩ := C130_selected data length (by omega)
    cases sel with
    | edges =>
      rw [h3]
      simp only [List.filter_append, hf, hdots, List.length_append, List.length_map, List.length_take, List.length_drop, List.length_nil]
      exact ⟨by omega, fun _ => by omega, fun _ => by simp⟩
    | begin =>
      rw [h1]
      simp only [List.filter_append, hf, hdots, List.length_append, List.length_map, List.length_take, List.length_nil]
      exact ⟨by omega, fun _ => by omega, fun _ => by simp⟩
    | end_ =>
      rw [h2]
      simp only [List.filter_append, hf, hdots, List.length_append, List.length_map, List.length_drop, List.length_nil]
      exact ⟨by omega, fun _ => by omega, fun _ => by simp⟩

/-! Cases meeting the hypotheses. -/

example : parse "<#12c".toList = .ok ⟨true, some .begin, some 12, none⟩ := by decide

example : parse "#007:.2f".toList = .ok ⟨false, none, some 7, some ".2f".toList⟩ := by decide

example : parse "#c".toList = .error .invalidArgument := by decide

example : parse "c#3".toList = .error .invalidArgument := by decide

example : parse (toText ⟨false, some .end_, some 105, some ".2f".toList⟩) = .ok ⟨false, some .end_, some 105, some ".2f".toList⟩ := C130_roundtrip _ (by
  intro t ht
  rw [← Option.some.inj ht]
  unfold c130Line
  decide)

example : select [1, 2, 3, 4, 5, 6] .edges 3 = [.elem 1, .dots, .elem 5, .elem 6] := by decide

example : select [1, 2, 3, 4, 5, 6] .edges 1 = [.dots, .elem 6] := by decide

example : select [1, 2, 3, 4, 5, 6] .begin 2 = [.elem 1, .elem 2, .dots] := (C130_selected _ 2 (by decide)).1

end Scipp.Props
