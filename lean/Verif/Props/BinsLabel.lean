import Verif.Lemmas.BinsLabel
import Verif.Spec.BinsLabel

/-!
# C116: extraction of events by label
-/

namespace Scipp.Props

open Scipp.BinsLabel Scipp.BinsLabel.Spec Numeric

variable {β E : Type} [LinearOrder β]

/-- **C116.** `bins[dim, a:b]` has in each bin the events with `a ≤ x < b`, in their order, also if there are events with NaN. It is refused if `b < a`. -/
theorem C116_range (T : Num β) (bins : List (List (Option β × E))) (a b : β) :
    (a ≤ b → ∃ r, slice T bins (.label (some a)) (.label (some b)) false = .ok r ∧ r.length = bins.length ∧
      ∀ (i : Nat) (l : List (Option β × E)), bins[i]? = some l → ∃ l', r[i]? = some l' ∧ l'.Sublist l ∧
        ∀ x ∈ l, (x ∈ l' ↔ ∃ v, x.1 = some v ∧ a ≤ v ∧ v < b)) ∧
    (b < a → slice T bins (.label (some a)) (.label (some b)) false = .error .binEdge) := by
  rw [slice_both]
  refine ⟨fun h => ?_, fun h => by rw [if_neg (not_le.2 h)]⟩
  rw [if_pos h]
  refine ⟨_, rfl, by simp, fun i l hl => ⟨_, by rw [List.getElem?_map, hl]; rfl, List.filter_sublist, fun x hx => ?_⟩⟩
  obtain ⟨v, y⟩ := x
  rw [List.mem_filter]
  cases v <;> simp [hx, BinsLabel.le, BinsLabel.lt]

example := (C116_range (E := Nat) (intNum 64) [[(some 3, 0), (some 7, 1)], [], [(none, 2), (some 4, 3)]] 3 5).1 (by decide)

/-- `slice` in the example above. -/
example : slice (E := Nat) (intNum 64) [[(some 3, 0), (some 7, 1)], [], [(none, 2), (some 4, 3)]] (.label (some 3)) (.label (some 5)) false =
    .ok [[(some 3, 0)], [], [(some 4, 3)]] := by decide

/-- **C116.** `bins[dim, :b]` has the events with `x < b`. Missing: coordinates with NaN (`C116_wrong_nan`). -/
theorem C116_open_start_partial (T : Num β) (bins : List (List (Option β × E))) (b : β) (hn : none ∉ coords bins) :
    slice T bins .missing (.label (some b)) false = .ok (bins.map fun l => l.filter fun x => before b x.1) := by
  rw [slice_start T bins b hn]
  refine congrArg _ (filter_bins fun x _ => ?_)
  obtain ⟨v, y⟩ := x
  cases v <;> rfl

example : slice (E := Nat) (intNum 64) [[(some 3, 0), (some 7, 1)], [(some 4, 3)]] .missing (.label (some 4)) false = .ok [[(some 3, 0)], []] :=
  C116_open_start_partial _ _ _ (by decide)

/-- **C116.** `bins[dim, a:]` has the events with `a ≤ x`, and `bins[dim, :]` has all events, for coordinates of integers or dates with any number of bits. Missing: the largest integer
(`C116_wrong_largest_int`). -/
theorem C116_open_stop_int_partial (bits : Nat) (hb : 1 ≤ bits) (bins : List (List (Option Int × E))) (a : Int)
    (hr : ∀ v ∈ coords bins, ∃ x : Int, v = some x ∧ -2 ^ (bits - 1) ≤ x ∧ x < 2 ^ (bits - 1) - 1) :
    slice (intNum bits) bins (.label (some a)) .missing false =
      .ok (bins.map fun l => l.filter fun x => onwards a x.1) ∧
    slice (intNum bits) bins .missing .missing false = .ok bins := by
  have hn : none ∉ coords bins := fun h => by obtain ⟨x, h, -⟩ := hr _ h; cases h
  have hup : ∀ x m, some x ∈ coords bins → some m ∈ coords bins ∨ m = (intNum bits).fillLowest → (intNum bits).fillLowest ≤ m → x ≤ m →
      x < (intNum bits).upper m := by
    intro x m hx hm _ hle
    have hm' : m < x + 1 ∨ (-2 ^ (bits - 1) ≤ m ∧ m < 2 ^ (bits - 1) - 1) := by
      rcases hm with hm | hm
      · obtain ⟨y, hy, h1⟩ := hr _ hm
        cases hy
        exact Or.inr h1
      · obtain ⟨y, hy, h1⟩ := hr _ hx
        cases hy
        left
        simp only [intNum] at hm
        omega
    obtain ⟨y, hy, h1⟩ := hr _ hx
    cases hy
    show x < AutoBins.wrap bits (m + 1)
    rw [wrap_small hb (by omega) (by omega)]
    omega
  refine ⟨?_, slice_open _ _ hn hup⟩
  rw [slice_stop _ _ _ hn hup]
  refine congrArg _ (filter_bins fun x _ => ?_)
  obtain ⟨v, y⟩ := x
  cases v <;> rfl

example : slice (E := Nat) (intNum 32) [[(some 3, 0), (some 7, 1)], [(some (-4), 3)]] (.label (some 4)) .missing false = .ok [[(some 7, 1)], []] :=
  (C116_open_stop_int_partial 32 (by decide) _ _ (by decide)).1

/-- **C116.** `bins[dim, a:]` has the events with `a ≤ x`, and `bins[dim, :]` has all events, for coordinates of type `double`. Missing: NaN (`C116_wrong_nan`), infinity (`C116_wrong_inf`), and numbers
from 2^53 on (`C116_wrong_large`). -/
theorem C116_open_stop_float_partial (bins : List (List (Option BinsLabel.Float × E))) (a : BinsLabel.Float)
    (hr : ∀ v ∈ coords bins, v = some ⊥ ∨ ∃ q, v = some (fin q) ∧ roundDouble q = q ∧ |q| < 2 ^ 53) :
    slice floatNum bins (.label (some a)) .missing false =
      .ok (bins.map fun l => l.filter fun x => onwards a x.1) ∧
    slice floatNum bins .missing .missing false = .ok bins := by
  have hn : none ∉ coords bins := fun h => by
    rcases hr _ h with h | ⟨q, h, -⟩
    · cases h
    · cases h
  have hup : ∀ x m, some x ∈ coords bins → some m ∈ coords bins ∨ m = floatNum.fillLowest → floatNum.fillLowest ≤ m → x ≤ m → x < floatNum.upper m := by
    intro x m hx hm hl hle
    have hmf : ∃ q, m = fin q := by
      rcases hm with hm | hm
      · rcases hr _ hm with h | ⟨q, h, -⟩
        · cases h
          exact absurd hl (by simp [floatNum, fin])
        · exact ⟨q, Option.some.inj h⟩
      · exact ⟨_, hm⟩
    obtain ⟨q, rfl⟩ := hmf
    show x < fin (AutoBins.upperFloat q)
    rcases hr _ hx with h | ⟨p, h, hp1, hp2⟩
    · rw [Option.some.inj h]
      exact WithBot.bot_lt_coe _
    · rw [Option.some.inj h] at hle ⊢
      have hpq : p ≤ q := by simpa [fin] using hle
      have : p < AutoBins.upperFloat q := by
        rcases hm with hm | hm
        · rcases hr _ hm with h' | ⟨q', h', hq1, hq2⟩
          · cases h'
          · have : q = q' := by simpa [fin] using h'
            subst this
            exact hpq.trans_lt (AutoBins.lt_upperFloat hq2)
        · have : q = -((2 ^ 53 - 1) * 2 ^ 971) := by
            have h6 : fin q = fin (-((2 ^ 53 - 1) * 2 ^ 971)) := hm
            exact WithTop.coe_injective (WithBot.coe_injective h6)
          have h2 := abs_lt.1 hp2
          rw [this] at hpq
          exact absurd (h2.1.trans_le hpq) (by decide +kernel)
      simpa [fin] using this
  refine ⟨?_, slice_open _ _ hn hup⟩
  rw [slice_stop _ _ _ hn hup]
  refine congrArg _ (filter_bins fun x _ => ?_)
  obtain ⟨v, y⟩ := x
  cases v <;> rfl

example : slice (E := Nat) floatNum [[(some (fin (1 / 2)), 0), (some ⊥, 1)], [(some (fin 3), 2)]] .missing .missing false =
    .ok [[(some (fin (1 / 2)), 0), (some ⊥, 1)], [(some (fin 3), 2)]] :=
  (C116_open_stop_float_partial _ ⊥ (by
    intro v hv
    simp only [coords, List.flatten_cons, List.flatten_nil, List.cons_append, List.nil_append, List.append_nil, List.map_cons, List.map_nil, List.mem_cons,
      List.not_mem_nil, or_false] at hv
    rcases hv with rfl | rfl | rfl
    · exact Or.inr ⟨1 / 2, rfl, by decide +kernel, by decide +kernel⟩
    · exact Or.inl rfl
    · exact Or.inr ⟨3, rfl, by decide +kernel, by decide +kernel⟩)).2

/-- **C116.** A label divides the events: those before and those from it on are all events of a bin, none is in both. -/
theorem C116_split (bits : Nat) (hb : 1 ≤ bits) (bins : List (List (Option Int × E))) (a : Int)
    (hr : ∀ v ∈ coords bins, ∃ x : Int, v = some x ∧ -2 ^ (bits - 1) ≤ x ∧ x < 2 ^ (bits - 1) - 1) :
    ∃ l r, slice (intNum bits) bins .missing (.label (some a)) false = .ok l ∧ slice (intNum bits) bins (.label (some a)) .missing false = .ok r ∧
      ∀ (i : Nat) (b : List (Option Int × E)), bins[i]? = some b → ∃ x y, l[i]? = some x ∧ r[i]? = some y ∧ (x ++ y).Perm b := by
  have hn : none ∉ coords bins := fun h => by obtain ⟨x, h, -⟩ := hr _ h; cases h
  refine ⟨_, _, C116_open_start_partial _ _ _ hn, (C116_open_stop_int_partial bits hb bins a hr).1, fun i b hi => ?_⟩
  refine ⟨_, _, by rw [List.getElem?_map, hi]; rfl, by rw [List.getElem?_map, hi]; rfl, ?_⟩
  have hmem : b ∈ bins := List.mem_of_getElem? hi
  dsimp only
  have hc : b.filter (fun x => onwards a x.1) = b.filter (fun x => !before a x.1) := List.filter_congr ?_
  · rw [hc]
    exact List.filter_append_perm _ _
  · intro x hx
    obtain ⟨v, y⟩ := x
    cases v with
    | none => exact absurd (mem_coords hmem hx) hn
    | some v =>
      by_cases h : v < a
      · simp [before, onwards, h]
      · simp [before, onwards, h, not_lt.1 h]

example := C116_split (E := Nat) 64 (by decide) [[(some 3, 0), (some 7, 1)], [(some (-4), 3)]] 4 (by decide)

/-- **C116.** `bins[dim, v]` has the events with the label `v`. -/
theorem C116_label (bins : List (List (Option β × E))) (v : β) (i : Nat) (l : List (Option β × E)) (hi : bins[i]? = some l) :
    ∃ l', (pick bins (some v))[i]? = some l' ∧ l'.Sublist l ∧ ∀ x ∈ l, (x ∈ l' ↔ x.1 = some v) := by
  refine ⟨_, by rw [pick, List.getElem?_map, hi]; rfl, List.filter_sublist, fun x hx => ?_⟩
  obtain ⟨w, y⟩ := x
  rw [List.mem_filter]
  cases w with
  | none => simp [BinsLabel.le]
  | some w =>
    simp only [hx, true_and, BinsLabel.le, Bool.and_eq_true, decide_eq_true_eq, Option.some.injEq]
    exact le_antisymm_iff.symm

example : pick (β := Int) (E := Nat) [[(some 3, 0), (none, 1), (some 3, 2)], [(some 4, 3)]] (some 3) = [[(some 3, 0), (some 3, 2)], []] := by decide

/-- **C116 fails** if an event has NaN as coordinate: ranges without start or without stop are refused. -/
theorem C116_wrong_nan (T : Num β) (bins : List (List (Option β × E))) (hn : none ∈ coords bins) (a : β) :
    slice T bins .missing (.label (some a)) false = .error .binEdge ∧ slice T bins (.label (some a)) .missing false = .error .binEdge ∧
      slice T bins .missing .missing false = .error .binEdge := by
  simp only [slice, startOf, stopOf, foldMin_nan hn, foldMax_nan hn, adjust, BinsLabel.lt, binAndSqueeze, BinsLabel.le, Bool.false_eq_true, if_false, Option.map_none, and_self]

example := (C116_wrong_nan (E := Nat) floatNum [[(some (fin 1), 0), (none, 1)]] (by simp [coords]) ⊥).1

/-- **C116 fails** for infinity: with `a:` such events are lost. -/
theorem C116_wrong_inf (bins : List (List (Option BinsLabel.Float × E))) (hn : none ∉ coords bins) (hm : some (some none) ∈ coords bins) (a : BinsLabel.Float)
    (r : List (List (Option BinsLabel.Float × E))) (hr : slice floatNum bins (.label (some a)) .missing false = .ok r) :
    ∀ b ∈ r, ∀ x ∈ b, x.1 ≠ some (some none) :=
  slice_lost floatNum hn hm (fun _ _ => by exact (le_top : _ ≤ (⊤ : BinsLabel.Float))) (by exact (le_top : _ ≤ (⊤ : BinsLabel.Float))) rfl a hr

example : slice (E := Nat) floatNum [[(some ⊥, 0), (some (some none), 1)]] (.label (some ⊥)) .missing false = .ok [[(some ⊥, 0)]] := rfl

/-- **C116 fails** for numbers from 2^53 on: if adding one to the largest coordinate does not change it, then with `a:` all events with that coordinate are lost. -/
theorem C116_wrong_large (bins : List (List (Option BinsLabel.Float × E))) (hn : none ∉ coords bins) (q : ℚ) (hq : roundDouble (q + 1) = q) (hl : floatNum.fillLowest ≤ fin q)
    (hm : some (fin q) ∈ coords bins) (hmax : ∀ x, some x ∈ coords bins → x ≤ fin q) (a : BinsLabel.Float)
    (r : List (List (Option BinsLabel.Float × E))) (hr : slice floatNum bins (.label (some a)) .missing false = .ok r) :
    ∀ b ∈ r, ∀ x ∈ b, x.1 ≠ some (fin q) :=
  slice_lost floatNum hn hm hmax hl (by show fin (AutoBins.upperFloat q) = fin q; simp [AutoBins.upperFloat, AutoBins.nextAfter, hq]) a hr

/-- Times in nanoseconds as floating-point numbers. -/
example (r : List (List (Option BinsLabel.Float × Nat))) (hr : slice floatNum [[(some (fin 1700000000000000000), 0)], [(some (fin 1700000000000001024), 1)]]
    (.label (some (fin 0))) .missing false = .ok r) : ∀ b ∈ r, ∀ x ∈ b, x.1 ≠ some (fin 1700000000000001024) := by
  refine C116_wrong_large _ (by simp [coords]) 1700000000000001024 (by decide +kernel)
    (WithBot.coe_le_coe.2 (WithTop.coe_le_coe.2 (by decide +kernel))) (by simp [coords]) ?_ _ r hr
  intro x hx
  simp only [coords, List.flatten_cons, List.flatten_nil, List.cons_append, List.nil_append, List.append_nil, List.map_cons, List.map_nil, List.mem_cons,
    List.not_mem_nil, or_false, Option.some.injEq] at hx
  rcases hx with rfl | rfl
  · exact WithBot.coe_le_coe.2 (WithTop.coe_le_coe.2 (by decide +kernel))
  · exact le_refl _

/-- **C116 fails** if there is an event with the largest integer: with `a:` all events are lost, also others. -/
theorem C116_wrong_largest_int (bits : Nat) (hb : 1 ≤ bits) (bins : List (List (Option Int × E))) (a : Int) (ha : -2 ^ (bits - 1) ≤ a)
    (hr : ∀ v ∈ coords bins, ∃ x : Int, v = some x ∧ x ≤ 2 ^ (bits - 1) - 1) (hm : some (2 ^ (bits - 1) - 1 : Int) ∈ coords bins) :
    slice (intNum bits) bins (.label (some a)) .missing false = .ok (bins.map fun _ => []) := by
  have hn : none ∉ coords bins := fun h => by obtain ⟨x, h, -⟩ := hr _ h; cases h
  obtain ⟨k, h1, -, h4, h3⟩ := foldMax hn (intNum bits).fillLowest
  have hk : k = 2 ^ (bits - 1) - 1 := by
    refine le_antisymm ?_ (h3 _ hm)
    rcases h4 with h4 | h4
    · have : (0 : Int) < 2 ^ (bits - 1) := by positivity
      rw [h4]; simp only [intNum]; omega
    · obtain ⟨x, hx, h5⟩ := hr _ h4
      cases hx
      exact h5
  have hu : (intNum bits).upper k = -2 ^ (bits - 1) := by
    show AutoBins.wrap bits (k + 1) = _
    rw [hk, show (2 : Int) ^ (bits - 1) - 1 + 1 = 2 ^ (bits - 1) from by ring, wrap_max hb]
  have empty : ∀ s e : Int, e ≤ s → le (some s) (some e) = true → binAndSqueeze bins (some s) (some e) = .ok (bins.map fun _ => []) := by
    intro s e h h'
    simp only [binAndSqueeze, h', if_true]
    refine congrArg _ (List.map_congr_left fun b _ => List.filter_eq_nil_iff.2 fun x _ => ?_)
    obtain ⟨v, y⟩ := x
    cases v with
    | none => simp [BinsLabel.le]
    | some v => simp only [BinsLabel.le, BinsLabel.lt, Bool.and_eq_true, decide_eq_true_eq]; omega
  simp only [slice, startOf, stopOf, h1, Option.map_some, hu, adjust, Bool.false_eq_true, if_false]
  split
  · exact empty a a (le_refl _) (by simp [BinsLabel.le])
  · rename_i h
    have h' : a ≤ -2 ^ (bits - 1) := by simpa [BinsLabel.lt] using h
    exact empty a _ ha (by simp only [BinsLabel.le, decide_eq_true_eq]; exact h')

example : slice (E := Nat) (intNum 64) [[(some 5, 0)], [(some 9223372036854775807, 1)]] (.label (some 0)) .missing false = .ok [[], []] := by decide +kernel

end Scipp.Props
