import Verif.Spec.CurveFit
import Mathlib.Data.List.Nodup
import Mathlib.Tactic.SplitIfs
import Mathlib.Tactic.ByContra
/-
Lemmas about fits of every slice.
-/
namespace Scipp.CurveFit
open Scipp

variable {V : Type}

/-- A variable at a position along some dims. -/
def Col.fix {α : Type} (v : Col α) (ds : List Dim) (c : Pos) : Col α := ⟨v.dims.filter fun p => decide (p.1 ∉ ds), fun q => v.el (merge ds c q)⟩

/-- A data array at a position along some dims. -/
def Array.fix (a : Array V) (ds : List Dim) (c : Pos) : Array V :=
  ⟨a.dims.filter fun p => decide (p.1 ∉ ds), fun q => a.val (merge ds c q), a.var.map fun f q => f (merge ds c q),
    a.coords.map fun e => (e.1, e.2.fix ds c), a.masks.map fun e => (e.1, e.2.fix ds c)⟩

theorem merge_place (ds : List Dim) (c q : Pos) (d : Dim) (i : Nat) : place (merge ds c q) d i = merge (d :: ds) (place c d i) q := by
  funext e
  unfold place merge
  by_cases h : e = d
  · simp [h]
  · simp [h]

theorem filter_fix (l : List (Dim × Nat)) (d : Dim) (ds : List Dim) :
    (l.filter fun p => p.1 != d).filter (fun p => decide (p.1 ∉ ds)) = l.filter fun p => decide (p.1 ∉ d :: ds) := by
  rw [List.filter_filter]
  apply List.filter_congr
  intro p _
  by_cases h : p.1 = d
  · simp [h]
  · simp [h]

theorem slice_eq {α : Type} (v : Col α) (hv : v.WF) (d : Dim) (i : Nat) : v.slice d i = ⟨v.dims.filter fun p => p.1 != d, fun c => v.el (place c d i)⟩ := by
  unfold Col.slice
  split
  · rfl
  · rename_i h
    have hd : ∀ p ∈ v.dims, p.1 ≠ d := by
      intro p hp hpd
      apply h
      rw [List.contains_iff_mem]
      exact List.mem_map.2 ⟨p, hp, hpd⟩
    obtain ⟨dims, el⟩ := v
    simp only [Col.mk.injEq]
    refine ⟨?_, ?_⟩
    · symm
      rw [List.filter_eq_self]
      intro p hp
      simpa using hd p hp
    · funext c
      refine hv _ _ ?_
      intro p hp
      simp [place, hd p hp]

theorem slice_wf {α : Type} (v : Col α) (hv : v.WF) (d : Dim) (i : Nat) : (v.slice d i).WF := by
  rw [slice_eq v hv]
  intro c c' h
  refine hv _ _ ?_
  intro p hp
  unfold place
  split
  · rfl
  · rename_i hpd
    exact h p (List.mem_filter.2 ⟨hp, by simpa using hpd⟩)

theorem slice_fix {α : Type} (v : Col α) (hv : v.WF) (d : Dim) (i : Nat) (ds : List Dim) (c : Pos) : (v.slice d i).fix ds c = v.fix (d :: ds) (place c d i) := by
  rw [slice_eq v hv]
  unfold Col.fix
  simp only [Col.mk.injEq]
  exact ⟨filter_fix _ _ _, by funext q; rw [merge_place]⟩

theorem array_slice_fix (a : Array V) (hc : ∀ e ∈ a.coords, e.2.WF) (hm : ∀ e ∈ a.masks, e.2.WF) (d : Dim) (i : Nat) (ds : List Dim) (c : Pos) :
    (a.slice d i).fix ds c = a.fix (d :: ds) (place c d i) := by
  unfold Array.slice Array.fix
  simp only [Array.mk.injEq, List.map_map, Option.map_map]
  refine ⟨filter_fix _ _ _, by funext q; rw [merge_place], ?_, ?_, ?_⟩
  · cases a.var with
    | none => rfl
    | some f => simp only [Option.map_some, Function.comp_apply, Option.some.injEq]; funext q; rw [merge_place]
  · refine List.map_congr_left fun e he => ?_
    simp only [Function.comp_apply, slice_fix e.2 (hc e he)]
  · refine List.map_congr_left fun e he => ?_
    simp only [Function.comp_apply, slice_fix e.2 (hm e he)]

theorem mapM_flatMap {ε α β γ : Type} (l : List α) (g : α → List β) (h : β → Except ε γ) :
    (l.mapM fun i => (g i).mapM h).map List.flatten = (l.flatMap g).mapM h := by
  induction l with
  | nil => rfl
  | cons x l ih =>
    rw [List.mapM_cons, List.flatMap_cons, List.mapM_append, ← ih]
    cases (g x).mapM h with
    | error e => rfl
    | ok r =>
      cases l.mapM fun i => (g i).mapM h with
      | error e => rfl
      | ok rs => rfl

theorem mapM_congr_left {ε α β : Type} {l : List α} {f g : α → Except ε β} (h : ∀ x ∈ l, f x = g x) : l.mapM f = l.mapM g := by
  induction l with
  | nil => rfl
  | cons x l ih =>
    rw [List.mapM_cons, List.mapM_cons, h x List.mem_cons_self, ih fun y hy => h y (List.mem_cons_of_mem _ hy)]

theorem mapM_get {ε α β : Type} {l : List α} {f : α → Except ε β} {rs : List β} (h : l.mapM f = .ok rs) :
    rs.length = l.length ∧ ∀ (i : Nat) (x : α), l[i]? = some x → ∃ r, rs[i]? = some r ∧ f x = .ok r := by
  induction l generalizing rs with
  | nil =>
    obtain rfl : [] = rs := Except.ok.inj h
    simp
  | cons x l ih =>
    rw [List.mapM_cons] at h
    cases hx : f x with
    | error e => rw [hx] at h; cases h
    | ok r =>
      cases hl : l.mapM f with
      | error e => rw [hx, hl] at h; cases h
      | ok rs' =>
        rw [hx, hl] at h
        obtain rfl : r :: rs' = rs := Except.ok.inj h
        obtain ⟨h1, h2⟩ := ih hl
        refine ⟨by simp [h1], ?_⟩
        intro i y hy
        cases i with
        | zero =>
          simp only [List.getElem?_cons_zero, Option.some.injEq] at hy
          subst hy
          exact ⟨r, by simp, hx⟩
        | succ i => simpa using h2 i y (by simpa using hy)

theorem mapM_ok {ε α β : Type} {l : List α} {f : α → Except ε β} (h : ∀ x ∈ l, ∃ r, f x = .ok r) : ∃ rs, l.mapM f = .ok rs := by
  induction l with
  | nil => exact ⟨[], rfl⟩
  | cons x l ih =>
    obtain ⟨r, hr⟩ := h x List.mem_cons_self
    obtain ⟨rs, hrs⟩ := ih fun y hy => h y (List.mem_cons_of_mem _ hy)
    exact ⟨r :: rs, by rw [List.mapM_cons, hr, hrs]; rfl⟩

theorem run_eq [Zero V] [DecidableEq V] (solve : Solver V) (over : List (Dim × Nat)) (a : Array V) (p0 : List (Nat × Col V)) (bounds : List (Nat × Col V × Col V))
    (hc : ∀ e ∈ a.coords, e.2.WF) (hm : ∀ e ∈ a.masks, e.2.WF) (hp : ∀ e ∈ p0, e.2.WF) (hb : ∀ e ∈ bounds, e.2.1.WF ∧ e.2.2.WF) :
    run solve over a p0 bounds = (positions over).mapM fun c => leaf solve (a.fix (over.map (·.1)) c) (p0.map fun e => (e.1, e.2.fix (over.map (·.1)) c))
      (bounds.map fun e => (e.1, e.2.1.fix (over.map (·.1)) c, e.2.2.fix (over.map (·.1)) c)) := by
  induction over generalizing a p0 bounds with
  | nil =>
    have hz : ∀ {α : Type} (v : Col α) (c : Pos), v.fix [] c = v := by
      intro α v c
      unfold Col.fix merge
      simp
    have ha : a.fix [] (fun _ => 0) = a := by
      obtain ⟨dims, val, var, coords, masks⟩ := a
      have hmg : ∀ q : Pos, merge [] (fun _ => 0) q = q := fun q => rfl
      simp only [Array.fix, hz, List.map_id', hmg, List.not_mem_nil, not_false_eq_true, decide_true, List.filter_true]
      cases var <;> rfl
    simp only [run, positions, List.map_nil, List.mapM_cons, List.mapM_nil, hz, ha, List.map_id']
    cases leaf solve a p0 bounds <;> rfl
  | cons p rest ih =>
    obtain ⟨d, n⟩ := p
    simp only [run, positions, List.map_cons]
    rw [← mapM_flatMap]
    congr 1
    refine mapM_congr_left fun i _ => ?_
    rw [ih]
    · rw [List.mapM_map]
      refine mapM_congr_left fun c _ => ?_
      rw [array_slice_fix a hc hm, List.map_map, List.map_map]
      congr 1
      · refine List.map_congr_left fun e he => ?_
        simp only [Function.comp_apply, slice_fix e.2 (hp e he)]
      · refine List.map_congr_left fun e he => ?_
        simp only [Function.comp_apply, slice_fix e.2.1 (hb e he).1, slice_fix e.2.2 (hb e he).2]
    · intro e he
      obtain ⟨e', he', rfl⟩ := List.mem_map.1 he
      exact slice_wf _ (hc e' he') _ _
    · intro e he
      obtain ⟨e', he', rfl⟩ := List.mem_map.1 he
      exact slice_wf _ (hm e' he') _ _
    · intro e he
      obtain ⟨e', he', rfl⟩ := List.mem_map.1 he
      exact slice_wf _ (hp e' he') _ _
    · intro e he
      obtain ⟨e', he', rfl⟩ := List.mem_map.1 he
      exact ⟨slice_wf _ (hb e' he').1 _ _, slice_wf _ (hb e' he').2 _ _⟩

theorem positions_length (dims : List (Dim × Nat)) : (positions dims).length = volume dims := by
  induction dims with
  | nil => rfl
  | cons p rest ih =>
    obtain ⟨d, n⟩ := p
    have : volume ((d, n) :: rest) = n * volume rest := by simp [volume]
    rw [this]
    simp only [positions, List.length_flatMap, List.length_map, ih]
    simp

theorem flatMap_get {α : Type} (f : Nat → List α) (m : Nat) (hf : ∀ i, (f i).length = m) (n i j : Nat) (hi : i < n) (hj : j < m) :
    ((List.range n).flatMap f)[i * m + j]? = (f i)[j]? := by
  induction n with
  | zero => omega
  | succ n ih =>
    have hl : ((List.range n).flatMap f).length = n * m := by simp [List.length_flatMap, hf]
    rw [List.range_succ, List.flatMap_append]
    simp only [List.flatMap_cons, List.flatMap_nil, List.append_nil]
    by_cases h : i < n
    · rw [List.getElem?_append_left, ih h]
      rw [hl]
      calc i * m + j < i * m + m := by omega
        _ = (i + 1) * m := by rw [Nat.add_mul, Nat.one_mul]
        _ ≤ n * m := Nat.mul_le_mul_right _ h
    · obtain rfl : i = n := by omega
      rw [List.getElem?_append_right (by rw [hl]; omega), hl]
      congr 1
      omega

theorem flat_lt (dims : List (Dim × Nat)) (c : Pos) (hc : Inside dims c) : flat dims c < volume dims := by
  induction dims with
  | nil => simp [flat, volume]
  | cons p rest ih =>
    obtain ⟨d, n⟩ := p
    have h1 : c d < n := hc (d, n) List.mem_cons_self
    have h2 := ih fun p hp => hc p (List.mem_cons_of_mem _ hp)
    have : volume ((d, n) :: rest) = n * volume rest := by simp [volume]
    rw [this]
    simp only [flat]
    calc c d * volume rest + flat rest c < c d * volume rest + volume rest := by omega
      _ = (c d + 1) * volume rest := by rw [Nat.add_mul, Nat.one_mul]
      _ ≤ n * volume rest := Nat.mul_le_mul_right _ h1

theorem positions_get (dims : List (Dim × Nat)) (hn : (dims.map (·.1)).Nodup) (c : Pos) (hc : Inside dims c) :
    ∃ c', (positions dims)[flat dims c]? = some c' ∧ ∀ p ∈ dims, c' p.1 = c p.1 := by
  induction dims with
  | nil => exact ⟨fun _ => 0, rfl, by simp⟩
  | cons p rest ih =>
    obtain ⟨d, n⟩ := p
    rw [List.map_cons, List.nodup_cons] at hn
    have hc' : Inside rest c := fun p hp => hc p (List.mem_cons_of_mem _ hp)
    obtain ⟨c', h1, h2⟩ := ih hn.2 hc'
    refine ⟨place c' d (c d), ?_, ?_⟩
    · simp only [positions, flat]
      rw [flatMap_get _ (volume rest) (by intro i; rw [List.length_map, positions_length]) _ _ _ (hc (d, n) List.mem_cons_self) (flat_lt _ _ hc'),
        List.getElem?_map, h1]
      rfl
    · intro p hp
      rcases List.mem_cons.1 hp with rfl | hp
      · simp [place]
      · have : p.1 ≠ d := fun h => hn.1 (h ▸ List.mem_map.2 ⟨p, hp, rfl⟩)
        simp [place, this, h2 p hp]

theorem positions_inside (dims : List (Dim × Nat)) (hn : (dims.map (·.1)).Nodup) : ∀ c ∈ positions dims, Inside dims c := by
  induction dims with
  | nil => intro c _ p hp; simp at hp
  | cons p rest ih =>
    obtain ⟨d, n⟩ := p
    rw [List.map_cons, List.nodup_cons] at hn
    intro c hc
    simp only [positions, List.mem_flatMap, List.mem_range] at hc
    obtain ⟨i, hi, hc⟩ := hc
    obtain ⟨c', hc', rfl⟩ := List.mem_map.1 hc
    intro p hp
    rcases List.mem_cons.1 hp with rfl | hp
    · simpa [place] using hi
    · have : p.1 ≠ d := fun h => hn.1 (h ▸ List.mem_map.2 ⟨p, hp, rfl⟩)
      simpa [place, this] using ih hn.2 c' hc' p hp

theorem positions_distinct (dims : List (Dim × Nat)) (hn : (dims.map (·.1)).Nodup) : (positions dims).Pairwise fun c c' => ∃ p ∈ dims, c p.1 ≠ c' p.1 := by
  induction dims with
  | nil => simp [positions]
  | cons p rest ih =>
    obtain ⟨d, n⟩ := p
    rw [List.map_cons, List.nodup_cons] at hn
    simp only [positions]
    rw [List.pairwise_flatMap]
    refine ⟨?_, ?_⟩
    · intro i _
      rw [List.pairwise_map]
      refine (ih hn.2).imp ?_
      rintro c c' ⟨p, hp, h⟩
      have : p.1 ≠ d := fun h => hn.1 (h ▸ List.mem_map.2 ⟨p, hp, rfl⟩)
      exact ⟨p, List.mem_cons_of_mem _ hp, by simpa [place, this] using h⟩
    · refine List.nodup_range.imp ?_
      intro i j hij x hx y hy
      obtain ⟨c, _, rfl⟩ := List.mem_map.1 hx
      obtain ⟨c', _, rfl⟩ := List.mem_map.1 hy
      exact ⟨(d, n), List.mem_cons_self, by simpa [place] using hij⟩

theorem merge_congr {ds : List Dim} {c c' : Pos} (h : ∀ d ∈ ds, c d = c' d) (q : Pos) : merge ds c q = merge ds c' q := by
  funext e
  unfold merge
  split
  · rename_i he; exact h e he
  · rfl

theorem rows_eq (a : Array V) (ds : List Dim) (c : Pos) :
    ((positions (a.fix ds c).dims).filter fun q => !(a.fix ds c).masks.any fun e => e.2.el q).map (merge ds c) = pointsAt a ds c := by
  unfold pointsAt
  rw [List.filter_map]
  congr 1
  apply List.filter_congr
  intro q _
  simp only [Array.fix, List.any_map, Function.comp_apply, Col.fix]
  rw [Bool.eq_iff_iff]
  simp [Function.comp_def]

theorem fix_dims {α : Type} (v : Col α) (ds : List Dim) (c : Pos) : (v.fix ds c).dims = [] ↔ ∀ p ∈ v.dims, p.1 ∈ ds := by
  simp [Col.fix, List.filter_eq_nil_iff]

theorem fix_el {α : Type} (v : Col α) (hv : v.WF) (ds : List Dim) (c q : Pos) (h : ∀ p ∈ v.dims, p.1 ∈ ds) : (v.fix ds c).el q = v.el c := by
  refine hv _ _ fun p hp => ?_
  simp [merge, h p hp]

/-- Guesses and bounds have no dims other than `ds`. -/
def Fitting (p0 : List (Nat × Col V)) (bounds : List (Nat × Col V × Col V)) (ds : List Dim) : Prop :=
  (∀ e ∈ p0, ∀ p ∈ e.2.dims, p.1 ∈ ds) ∧ ∀ e ∈ bounds, (∀ p ∈ e.2.1.dims, p.1 ∈ ds) ∧ ∀ p ∈ e.2.2.dims, p.1 ∈ ds

theorem leaf_ok [Zero V] [DecidableEq V] (solve : Solver V) (coords : List (Nat × Col V)) (a : Array V) (p0 : List (Nat × Col V)) (bounds : List (Nat × Col V × Col V)) (h : WF coords a p0 bounds)
    (ds : List Dim) (c : Pos) (r : Option (List V × List (List V))) :
    leaf solve (Array.fix { a with coords := coords } ds c) (p0.map fun e => (e.1, e.2.fix ds c)) (bounds.map fun e => (e.1, e.2.1.fix ds c, e.2.2.fix ds c)) = .ok r ↔
    Fitting p0 bounds ds ∧ IsFit solve coords a p0 bounds ds c r := by
  have hrows := rows_eq { a with coords := coords } ds c
  have hpts : pointsAt { a with coords := coords } ds c = pointsAt a ds c := rfl
  rw [hpts] at hrows
  unfold leaf
  by_cases h1 : ∀ e ∈ p0, ∀ p ∈ e.2.dims, p.1 ∈ ds
  · rw [if_neg (by
      simp only [List.any_map, List.any_eq_true, Function.comp_apply, Bool.not_eq_true', not_exists, not_and, Bool.not_eq_false, List.isEmpty_iff]
      intro e he
      exact (fix_dims _ _ _).2 (h1 e he))]
    by_cases h2 : ∀ e ∈ bounds, (∀ p ∈ e.2.1.dims, p.1 ∈ ds) ∧ ∀ p ∈ e.2.2.dims, p.1 ∈ ds
    · rw [if_neg (by
        simp only [List.any_map, List.any_eq_true, Function.comp_apply, Bool.or_eq_true, Bool.not_eq_true', not_exists, not_and, not_or, Bool.not_eq_false, List.isEmpty_iff]
        intro e he
        exact ⟨(fix_dims _ _ _).2 (h2 e he).1, (fix_dims _ _ _).2 (h2 e he).2⟩)]
      have hF : Fitting p0 bounds ds := ⟨h1, h2⟩
      rw [and_iff_right hF]
      generalize hR : (positions (Array.fix { a with coords := coords } ds c).dims).filter (fun q => !(Array.fix { a with coords := coords } ds c).masks.any fun e => e.2.el q) = rows at hrows ⊢
      have hlen : (pointsAt a ds c).length = rows.length := by rw [← hrows, List.length_map]
      have e1 : rows.map (fun q => ((Array.fix { a with coords := coords } ds c).coords.map (fun e => e.2.el q), (Array.fix { a with coords := coords } ds c).val q)) =
          (pointsAt a ds c).map fun q => (coords.map (fun e => e.2.el q), a.val q) := by
        rw [← hrows, List.map_map]
        refine List.map_congr_left fun q _ => ?_
        simp [Array.fix, Col.fix, Function.comp_def]
      have e2 : (p0.map fun e => (e.1, e.2.fix ds c)).map (fun e => e.2.el (fun _ => 0)) = p0.map fun e => e.2.el c := by
        rw [List.map_map]
        refine List.map_congr_left fun e he => ?_
        exact fix_el e.2 (h.p0 e he) ds c _ (h1 e he)
      have e3 : ((Array.fix { a with coords := coords } ds c).var.map fun f => rows.map f) = a.var.map fun f => (pointsAt a ds c).map f := by
        simp only [Array.fix, Option.map_map]
        cases a.var with
        | none => rfl
        | some f => simp only [Option.map_some, Function.comp_apply, ← hrows, List.map_map, Function.comp_def]
      have e4 : (bounds.map fun e => (e.1, e.2.1.fix ds c, e.2.2.fix ds c)).map (fun e => (e.2.1.el (fun _ => 0), e.2.2.el (fun _ => 0))) = bounds.map fun e => (e.2.1.el c, e.2.2.el c) := by
        rw [List.map_map]
        refine List.map_congr_left fun e he => ?_
        simp only [Function.comp_apply]
        rw [fix_el e.2.1 (h.bounds e he).1 ds c _ (h2 e he).1, fix_el e.2.2 (h.bounds e he).2 ds c _ (h2 e he).2]
      have e5 : zeroVariance (Array.fix { a with coords := coords } ds c).var rows = true ↔ ∃ f, a.var = some f ∧ ∃ q ∈ pointsAt a ds c, f q = 0 := by
        simp only [Array.fix, zeroVariance]
        cases a.var with
        | none => simp
        | some f =>
          simp only [Option.map_some, List.any_eq_true, beq_iff_eq, Option.some.injEq, exists_eq_left', ← hrows]
          constructor
          · rintro ⟨q, hq, h0⟩
            exact ⟨merge ds c q, List.mem_map.2 ⟨q, hq, rfl⟩, h0⟩
          · rintro ⟨q', hq', h0⟩
            obtain ⟨q, hq, rfl⟩ := List.mem_map.1 hq'
            exact ⟨q, hq, h0⟩
      simp only [e1, e2, e3, e4, List.length_map]
      unfold IsFit
      rw [hlen]
      by_cases h3 : rows.length < p0.length
      · rw [if_pos h3]
        constructor
        · intro hr
          exact Or.inl ⟨h3, (Except.ok.inj hr).symm⟩
        · rintro (⟨_, rfl⟩ | ⟨h4, _⟩)
          · rfl
          · omega
      · rw [if_neg h3]
        split_ifs with h4
        · rw [e5] at h4
          obtain ⟨f, hf, q, hq, h0⟩ := h4
          constructor
          · intro hr; cases hr
          · rintro (⟨h4, _⟩ | ⟨_, h5, _⟩)
            · exact absurd h4 h3
            · exact absurd h0 (h5 f hf q hq)
        · rw [e5] at h4
          constructor
          · intro hr
            refine Or.inr ⟨by omega, fun f hf q hq h0 => h4 ⟨f, hf, q, hq, h0⟩, ?_⟩
            cases hs : solve ((pointsAt a ds c).map fun q => (coords.map (fun e => e.2.el q), a.val q)) (p0.map fun e => e.2.el c) (a.var.map fun f => (pointsAt a ds c).map f)
                (bounds.map fun e => (e.2.1.el c, e.2.2.el c)) with
            | error e => rw [hs] at hr; cases hr
            | ok s => rw [hs] at hr; exact ⟨s, rfl, (Except.ok.inj hr).symm⟩
          · rintro (⟨h5, _⟩ | ⟨_, _, s, hs, rfl⟩)
            · exact absurd h5 h3
            · rw [hs]; rfl
    · rw [if_pos (by
        by_contra hn
        apply h2
        simp only [List.any_map, List.any_eq_true, Function.comp_apply, Bool.or_eq_true, Bool.not_eq_true', not_exists, not_and, not_or, Bool.not_eq_false, List.isEmpty_iff] at hn
        intro e he
        exact ⟨(fix_dims _ _ _).1 (hn e he).1, (fix_dims _ _ _).1 (hn e he).2⟩)]
      constructor
      · intro hr; cases hr
      · rintro ⟨hF, _⟩; exact absurd hF.2 h2
  · rw [if_pos (by
      by_contra hn
      apply h1
      simp only [List.any_map, List.any_eq_true, Function.comp_apply, Bool.not_eq_true', not_exists, not_and, Bool.not_eq_false, List.isEmpty_iff] at hn
      intro e he
      exact (fix_dims _ _ _).1 (hn e he))]
    constructor
    · intro hr; cases hr
    · rintro ⟨hF, _⟩; exact absurd hF.1 h1

theorem lengthOf_eq {sizes : List (Dim × Nat)} (hn : (sizes.map (·.1)).Nodup) {d : Dim} {n : Nat} (h : (d, n) ∈ sizes) : lengthOf sizes d = some n := by
  unfold lengthOf
  cases hf : sizes.find? (fun p => p.1 == d) with
  | none => exact absurd (List.find?_eq_none.1 hf _ h) (by simp)
  | some p =>
    have h1 : p.1 = d := by simpa using List.find?_some hf
    rw [List.inj_on_of_nodup_map hn (List.mem_of_find?_eq_some hf) h h1]
    rfl

theorem lengthOf_none {sizes : List (Dim × Nat)} {d : Dim} (h : d ∉ sizes.map (·.1)) : lengthOf sizes d = none := by
  unfold lengthOf
  rw [Option.map_eq_none_iff, List.find?_eq_none]
  intro p hp hpd
  exact h (List.mem_map.2 ⟨p, hp, by simpa using hpd⟩)

theorem withoutEdge_mem {sizes dims r : List (Dim × Nat)} {x : Dim} {n : Nat} (hx : lengthOf sizes x = none) (hn : n ≠ 2) (h : (x, n) ∈ dims) (hr : withoutEdge sizes dims = .ok r) :
    (x, n) ∈ r := by
  induction dims generalizing r with
  | nil => simp at h
  | cons p rest ih =>
    obtain ⟨d, m⟩ := p
    simp only [withoutEdge] at hr
    rcases List.mem_cons.1 h with heq | h'
    · rw [Prod.mk.injEq] at heq
      obtain ⟨rfl, rfl⟩ := heq
      rw [hx] at hr
      simp [hn] at hr
    · cases hl : lengthOf sizes d with
      | none =>
        rw [hl] at hr
        simp only at hr
        split at hr
        · rw [← Except.ok.inj hr]; exact h'
        · cases hr
      | some k =>
        rw [hl] at hr
        simp only at hr
        split at hr
        · rw [← Except.ok.inj hr]; exact List.mem_cons_of_mem _ h'
        · cases hw : withoutEdge sizes rest with
          | error e => rw [hw] at hr; cases hr
          | ok r' =>
            rw [hw] at hr
            rw [← Except.ok.inj hr]
            exact List.mem_cons_of_mem _ (ih h' hw)

theorem canSet_false {sizes dims : List (Dim × Nat)} {x : Dim} {n : Nat} (hx : x ∉ sizes.map (·.1)) (hn : n ≠ 2) (h : (x, n) ∈ dims) : canSet sizes dims = false := by
  unfold canSet
  cases hw : withoutEdge sizes dims with
  | error e => rfl
  | ok r =>
    simp only
    rw [List.all_eq_false]
    refine ⟨(x, n), withoutEdge_mem (lengthOf_none hx) hn h hw, ?_⟩
    rw [lengthOf_none hx]
    simp

theorem canSet_true {sizes dims : List (Dim × Nat)} (hn : (sizes.map (·.1)).Nodup) (h : ∀ p ∈ dims, p ∈ sizes) : canSet sizes dims = true := by
  have : withoutEdge sizes dims = .ok dims := by
    induction dims with
    | nil => rfl
    | cons p rest ih =>
      obtain ⟨d, m⟩ := p
      simp only [withoutEdge]
      rw [lengthOf_eq hn (h (d, m) List.mem_cons_self)]
      simp only
      rw [if_neg (by omega), ih fun p hp => h p (List.mem_cons_of_mem _ hp)]
      rfl
  unfold canSet
  rw [this]
  simp only [List.all_eq_true, beq_iff_eq]
  intro p hp
  exact lengthOf_eq hn (h p hp)

end Scipp.CurveFit
