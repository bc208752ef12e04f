import Verif.Model.BinsLabel
import Verif.Lemmas.AutoBins3

namespace Scipp.BinsLabel

variable {β E : Type} [LinearOrder β]

theorem foldMin {l : List (Option β)} (h : none ∉ l) (a : β) :
    ∃ m, l.foldl minEquals (some a) = some m ∧ m ≤ a ∧ ∀ x, some x ∈ l → m ≤ x := by
  induction l generalizing a with
  | nil => exact ⟨a, rfl, le_refl _, by simp⟩
  | cons y l ih =>
    cases y with
    | none => simp at h
    | some y =>
      obtain ⟨m, h1, h2, h3⟩ := ih (fun hh => h (List.mem_cons_of_mem _ hh)) (min a y)
      refine ⟨m, h1, h2.trans (min_le_left _ _), fun x hx => ?_⟩
      rcases List.mem_cons.1 hx with hx | hx
      · cases hx; exact h2.trans (min_le_right _ _)
      · exact h3 x hx

theorem foldMax {l : List (Option β)} (h : none ∉ l) (a : β) :
    ∃ m, l.foldl maxEquals (some a) = some m ∧ a ≤ m ∧ (m = a ∨ some m ∈ l) ∧ ∀ x, some x ∈ l → x ≤ m := by
  induction l generalizing a with
  | nil => exact ⟨a, rfl, le_refl _, Or.inl rfl, by simp⟩
  | cons y l ih =>
    cases y with
    | none => simp at h
    | some y =>
      obtain ⟨m, h1, h2, h4, h3⟩ := ih (fun hh => h (List.mem_cons_of_mem _ hh)) (max a y)
      refine ⟨m, h1, (le_max_left _ _).trans h2, ?_, fun x hx => ?_⟩
      · rcases h4 with h4 | h4
        · rcases max_choice a y with hc | hc
          · left; rw [h4, hc]
          · right; rw [h4, hc]; exact List.mem_cons_self
        · right; exact List.mem_cons_of_mem _ h4
      · rcases List.mem_cons.1 hx with hx | hx
        · cases hx; exact (le_max_right _ _).trans h2
        · exact h3 x hx

theorem foldMin_none (l : List (Option β)) : l.foldl minEquals (none : Option β) = none := by
  induction l with
  | nil => rfl
  | cons y l ih => cases y <;> exact ih

theorem foldMax_none (l : List (Option β)) : l.foldl maxEquals (none : Option β) = none := by
  induction l with
  | nil => rfl
  | cons y l ih => cases y <;> exact ih

theorem foldMin_nan {l : List (Option β)} (h : none ∈ l) (a : Option β) : l.foldl minEquals a = none := by
  induction l generalizing a with
  | nil => cases h
  | cons y l ih =>
    rcases List.mem_cons.1 h with h | h
    · subst h; exact foldMin_none l
    · exact ih h _

theorem foldMax_nan {l : List (Option β)} (h : none ∈ l) (a : Option β) : l.foldl maxEquals a = none := by
  induction l generalizing a with
  | nil => cases h
  | cons y l ih =>
    rcases List.mem_cons.1 h with h | h
    · subst h; exact foldMax_none l
    · exact ih h _

theorem mem_coords {bins : List (List (Option β × E))} {b : List (Option β × E)} {x : Option β × E} (hb : b ∈ bins) (hx : x ∈ b) :
    x.1 ∈ coords bins := List.mem_map_of_mem (List.mem_flatten_of_mem hb hx)

theorem filter_bins {bins : List (List (Option β × E))} {p q : Option β × E → Bool} (h : ∀ x, x.1 ∈ coords bins → p x = q x) :
    bins.map (·.filter p) = bins.map (·.filter q) :=
  List.map_congr_left fun _ hb => List.filter_congr fun x hx => h x (mem_coords hb hx)

theorem slice_both (T : Num β) (bins : List (List (Option β × E))) (a b : β) :
    slice T bins (.label (some a)) (.label (some b)) false =
      if a ≤ b then .ok (bins.map (·.filter fun x => le (some a) x.1 && lt x.1 (some b))) else .error .binEdge := by
  simp only [slice, startOf, stopOf, adjust, Bool.false_eq_true, if_false]
  by_cases h : a ≤ b
  · have : lt (some b) (some a) = false := by simp [lt, h]
    rw [this, if_pos h]
    simp only [Bool.false_eq_true, if_false, binAndSqueeze, le, h, decide_true, if_true]
  · have : lt (some b) (some a) = true := by simp only [lt, decide_eq_true_eq]; exact not_le.1 h
    rw [this, if_neg h]
    simp only [if_true, binAndSqueeze, le, h, decide_false, Bool.false_eq_true, if_false]

theorem slice_start (T : Num β) (bins : List (List (Option β × E))) (b : β) (hn : none ∉ coords bins) :
    slice T bins .missing (.label (some b)) false = .ok (bins.map (·.filter fun x => lt x.1 (some b))) := by
  obtain ⟨m, h1, -, h3⟩ := foldMin hn T.fillMax
  have hge : ∀ x, some x ∈ coords bins → m ≤ x := h3
  simp only [slice, startOf, stopOf, h1, adjust, Bool.false_eq_true, if_false]
  by_cases h : m ≤ b
  · have : lt (some b) (some m) = false := by simp [lt, h]
    rw [this]
    simp only [Bool.false_eq_true, if_false, binAndSqueeze, le, h, decide_true, if_true]
    refine congrArg _ (filter_bins fun x hx => ?_)
    obtain ⟨v, y⟩ := x
    cases v with
    | none => exact absurd hx hn
    | some v => simp [le, hge v hx]
  · have : lt (some b) (some m) = true := by simp only [lt, decide_eq_true_eq]; exact not_le.1 h
    rw [this]
    simp only [if_true, binAndSqueeze, le, le_refl, decide_true]
    refine congrArg _ (filter_bins fun x hx => ?_)
    obtain ⟨v, y⟩ := x
    cases v with
    | none => exact absurd hx hn
    | some v =>
      have h5 : b < v := lt_of_lt_of_le (not_le.1 h) (hge v hx)
      simp [le, lt, h5.le]

/-- Open upper end: `hup` says that the upper bound is above all events. -/
theorem slice_stop (T : Num β) (bins : List (List (Option β × E))) (a : β) (hn : none ∉ coords bins)
    (hup : ∀ x m, some x ∈ coords bins → some m ∈ coords bins ∨ m = T.fillLowest → T.fillLowest ≤ m → x ≤ m → x < T.upper m) :
    slice T bins (.label (some a)) .missing false = .ok (bins.map (·.filter fun x => le (some a) x.1)) := by
  obtain ⟨m, h1, h2, h4, h3⟩ := foldMax hn T.fillLowest
  have hlt : ∀ x, some x ∈ coords bins → x < T.upper m := fun x hx => hup x m hx (h4.symm) h2 (h3 x hx)
  simp only [slice, startOf, stopOf, h1, Option.map_some, adjust, Bool.false_eq_true, if_false]
  by_cases h : a ≤ T.upper m
  · have : lt (some (T.upper m)) (some a) = false := by simp [lt, h]
    rw [this]
    simp only [Bool.false_eq_true, if_false, binAndSqueeze, le, h, decide_true, if_true]
    refine congrArg _ (filter_bins fun x hx => ?_)
    obtain ⟨v, y⟩ := x
    cases v with
    | none => exact absurd hx hn
    | some v => simp [lt, hlt v hx]
  · have : lt (some (T.upper m)) (some a) = true := by simp only [lt, decide_eq_true_eq]; exact not_le.1 h
    rw [this]
    simp only [if_true, binAndSqueeze, le, le_refl, decide_true]
    refine congrArg _ (filter_bins fun x hx => ?_)
    obtain ⟨v, y⟩ := x
    cases v with
    | none => exact absurd hx hn
    | some v =>
      have h5 : v < a := lt_trans (hlt v hx) (not_le.1 h)
      simp [le, h5, lt_irrefl]

theorem slice_open (T : Num β) (bins : List (List (Option β × E))) (hn : none ∉ coords bins)
    (hup : ∀ x m, some x ∈ coords bins → some m ∈ coords bins ∨ m = T.fillLowest → T.fillLowest ≤ m → x ≤ m → x < T.upper m) :
    slice T bins .missing .missing false = .ok bins := by
  obtain ⟨m, h1, h2, h4, h3⟩ := foldMax hn T.fillLowest
  obtain ⟨k, k1, -, k3⟩ := foldMin hn T.fillMax
  have hlt : ∀ x, some x ∈ coords bins → x < T.upper m := fun x hx => hup x m hx (h4.symm) h2 (h3 x hx)
  have hall : bins.map (·.filter fun _ => true) = bins := by simp
  conv_rhs => rw [← hall]
  simp only [slice, startOf, stopOf, h1, k1, Option.map_some, adjust, Bool.false_eq_true, if_false]
  by_cases h : k ≤ T.upper m
  · have : lt (some (T.upper m)) (some k) = false := by simp [lt, h]
    rw [this]
    simp only [Bool.false_eq_true, if_false, binAndSqueeze, le, h, decide_true, if_true]
    refine congrArg _ (filter_bins fun x hx => ?_)
    obtain ⟨v, y⟩ := x
    cases v with
    | none => exact absurd hx hn
    | some v => simp [le, lt, hlt v hx, k3 v hx]
  · have : lt (some (T.upper m)) (some k) = true := by simp only [lt, decide_eq_true_eq]; exact not_le.1 h
    rw [this]
    simp only [if_true, binAndSqueeze, le, le_refl, decide_true]
    refine congrArg _ (filter_bins fun x hx => ?_)
    obtain ⟨v, y⟩ := x
    cases v with
    | none => exact absurd hx hn
    | some v => exact absurd ((k3 v hx).trans (hlt v hx).le) h

/-- If nothing is above the largest coordinate then its events are lost. -/
theorem slice_lost (T : Num β) {bins : List (List (Option β × E))} (hn : none ∉ coords bins) {m : β} (hm : some m ∈ coords bins)
    (hmax : ∀ x, some x ∈ coords bins → x ≤ m) (hl : T.fillLowest ≤ m) (hu : T.upper m = m) (a : β) {r : List (List (Option β × E))}
    (hr : slice T bins (.label (some a)) .missing false = .ok r) : ∀ b ∈ r, ∀ x ∈ b, x.1 ≠ some m := by
  obtain ⟨k, h1, -, h4, h3⟩ := foldMax hn T.fillLowest
  have hk : k = m := by
    refine le_antisymm ?_ (h3 m hm)
    rcases h4 with h4 | h4
    · rw [h4]; exact hl
    · exact hmax k h4
  subst hk
  simp only [slice, startOf, stopOf, h1, Option.map_some, hu, adjust, Bool.false_eq_true, if_false] at hr
  have fin : ∀ s e : β, e ≤ k ∨ e ≤ s → binAndSqueeze bins (some s) (some e) = .ok r → ∀ b ∈ r, ∀ x ∈ b, x.1 ≠ some k := by
    intro s e hse hr b hb x hx hxk
    simp only [binAndSqueeze] at hr
    split at hr
    · cases hr
      obtain ⟨b', -, rfl⟩ := List.mem_map.1 hb
      have h5 := (List.mem_filter.1 hx).2
      simp only [hxk, le, lt, Bool.and_eq_true, decide_eq_true_eq] at h5
      rcases hse with hse | hse
      · exact absurd h5.2 (not_lt.2 hse)
      · exact absurd (h5.1.trans_lt h5.2) (not_lt.2 hse)
    · cases hr
  split at hr
  · exact fin a a (Or.inr (le_refl _)) hr
  · exact fin a k (Or.inl (le_refl _)) hr

theorem wrap_small {bits : Nat} (hb : 1 ≤ bits) {x : Int} (h1 : -2 ^ (bits - 1) ≤ x) (h2 : x < 2 ^ (bits - 1)) : AutoBins.wrap bits x = x := by
  unfold AutoBins.wrap
  have e : (2 : Int) ^ bits = 2 * 2 ^ (bits - 1) := by
    conv_lhs => rw [show bits = bits - 1 + 1 from by omega]
    rw [pow_succ]; ring
  rw [Int.emod_eq_of_lt (by omega) (by omega)]
  ring

theorem wrap_max {bits : Nat} (hb : 1 ≤ bits) : AutoBins.wrap bits (2 ^ (bits - 1)) = -2 ^ (bits - 1) := by
  unfold AutoBins.wrap
  have e : (2 : Int) ^ bits = 2 * 2 ^ (bits - 1) := by
    conv_lhs => rw [show bits = bits - 1 + 1 from by omega]
    rw [pow_succ]; ring
  rw [e, show (2 : Int) ^ (bits - 1) + 2 ^ (bits - 1) = 2 * 2 ^ (bits - 1) from by ring, Int.emod_self]
  ring

end Scipp.BinsLabel
