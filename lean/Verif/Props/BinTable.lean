import Verif.Spec.BinTable
import Verif.Props.MultiAxis
import Verif.Props.Binning
import Verif.Props.Histogram
/-
C78: `bin` puts the events into the right bins.
-/
namespace Scipp.Props
open Scipp Spec Binning BinTable
variable {α : Type} [LinearOrder α] {γ : Type} [DecidableEq γ] {E : Type}

/-! ### Row-major positions -/

/-- Horner's rule. -/
def horner : List Nat → List Nat → Nat → Nat
  | n :: ns, i :: is, acc => horner ns is (acc * n + i)
  | _, _, acc => acc

private theorem horner_acc : ∀ (ns is : List Nat) (acc : Nat), is.length = ns.length → horner ns is acc = acc * ns.prod + horner ns is 0
  | [], [], acc, _ => by simp [horner]
  | [], _ :: _, _, h => by simp at h
  | _ :: _, [], _, h => by simp at h
  | n :: ns, i :: is, acc, h => by
    have h : is.length = ns.length := by simpa using h
    simp only [horner, List.prod_cons]
    rw [horner_acc ns is _ h, horner_acc ns is (0 * n + i) h]
    ring

theorem mem_positions : ∀ (ns is : List Nat), is ∈ positions ns ↔ List.Forall₂ (· < ·) is ns
  | [], is => by
    simp only [positions, List.mem_singleton]
    constructor
    · rintro rfl; exact .nil
    · rintro ⟨⟩; rfl
  | n :: ns, is => by
    simp only [positions, List.mem_flatMap, List.mem_range, List.mem_map]
    constructor
    · rintro ⟨i, hi, js, hjs, rfl⟩
      exact .cons hi ((mem_positions ns js).1 hjs)
    · rintro (_ | ⟨h1, h2⟩)
      exact ⟨_, h1, _, (mem_positions ns _).2 h2, rfl⟩

theorem positions_horner : ∀ ns : List Nat, (positions ns).map (fun is => horner ns is 0) = List.range ns.prod
  | [] => by simp [positions, horner]
  | n :: ns => by
    have hr := range_mul (fun k : Nat => k) ns.prod n
    rw [List.map_id'] at hr
    rw [positions, List.map_flatMap, List.prod_cons, ← hr]
    refine List.flatMap_congr fun i _ => ?_
    rw [← positions_horner ns, List.map_map, List.map_map]
    refine List.map_congr_left fun is his => ?_
    simp only [Function.comp, horner]
    rw [horner_acc ns is _ ((mem_positions ns is).1 his).length_eq]
    ring

/-! ### The index of an event -/

theorem size_eq (a : Axis α γ E) (events : List E) (h : a.Ok events) (e : E) : (a.action e).extent = (a.size : Int) := by
  cases a with
  | bin edges l g c =>
    have := h.2.1
    simp only [Axis.action, AxisAction.extent, Axis.size]
    omega
  | group => rfl
  | groupInt => rfl
  | existing => rfl

theorem valid_of_ok (a : Axis α γ E) (events : List E) (h : a.Ok events) (e : E) (he : e ∈ events) : Valid (a.action e) := by
  cases a with
  | bin edges l g c => exact ⟨h.1, by have := h.2.1; rintro rfl; simp at this, h.2.2⟩
  | group => exact h
  | groupInt => exact h
  | existing n p => exact ⟨Int.natCast_nonneg _, by have := h e he; omega⟩

theorem has_unique (a : Axis α γ E) (events : List E) (h : a.Ok events) (e : E) {i j : Nat} (hi : a.Has i e) (hj : a.Has j e) : i = j := by
  have hl : ∀ {δ : Type} {labels : List δ} {x : δ}, labels.Nodup → labels[i]? = some x → labels[j]? = some x → i = j := by
    intro δ labels x hn h1 h2
    obtain ⟨a1, b1⟩ := List.getElem?_eq_some_iff.1 h1
    obtain ⟨a2, b2⟩ := List.getElem?_eq_some_iff.1 h2
    exact (List.Nodup.getElem_inj_iff hn).1 (b1.trans b2.symm)
  cases a with
  | bin edges l g c =>
    have h1 := ((C18_sorted_edges edges h.1 (c e)).1 i).2 hi
    have h2 := ((C18_sorted_edges edges h.1 (c e)).1 j).2 hj
    omega
  | group labels c => exact hl h hi hj
  | groupInt labels c => exact hl h hi hj
  | existing n p => exact hi.symm.trans hj

open Classical in
/-- The bin of the event along the axis. -/
noncomputable def axisBin (e : E) (a : Axis α γ E) : Option Nat := if h : ∃ i, a.Has i e then some h.choose else none

private theorem axisBin_iff (a : Axis α γ E) (events : List E) (h : a.Ok events) (e : E) (i : Nat) : axisBin e a = some i ↔ a.Has i e := by
  unfold axisBin
  split
  · rename_i hx
    constructor
    · intro hs; injection hs with hs; exact hs ▸ hx.choose_spec
    · intro hi; rw [has_unique a events h e hi hx.choose_spec]
  · rename_i hx
    constructor
    · intro hs; cases hs
    · intro hi; exact absurd ⟨i, hi⟩ hx

theorem assigned_axisBin (a : Axis α γ E) (events : List E) (h : a.Ok events) (e : E) : Assigned (a.action e) (axisBin e a) := by
  have hb := axisBin_iff a events h e
  cases a with
  | bin edges l g c => exact hb
  | group labels c => exact hb
  | groupInt labels c => exact hb
  | existing n p => exact ⟨p e, (hb (p e)).2 rfl, rfl⟩

theorem has_lt (a : Axis α γ E) (events : List E) (h : a.Ok events) (e : E) (he : e ∈ events) (i : Nat) (hi : a.Has i e) : i < a.size := by
  have := (update_spec (a.action e) (valid_of_ok a events h e he) _ (assigned_axisBin a events h e) 0).2 i ((axisBin_iff a events h e i).2 hi)
  rw [size_eq a events h e] at this
  omega

theorem index_of_event (axes : List (Axis α γ E)) (events : List E) (h : ∀ a ∈ axes, a.Ok events) (e : E) (he : e ∈ events) :
    ∃ t : Int, runActions (axes.map (Axis.action e)) 0 = .ok t ∧ t < volume axes ∧
      ∀ is ∈ positions (axes.map Axis.size), (t = (horner (axes.map Axis.size) is 0 : Nat) ↔ Belongs axes is e) := by
  have h1 : List.Forall₂ (fun a r => Valid a ∧ Assigned a r) (axes.map (Axis.action e)) (axes.map (axisBin e)) := by
    rw [List.forall₂_map_left_iff, List.forall₂_map_right_iff, List.forall₂_same]
    exact fun a ha => ⟨valid_of_ok a events (h a ha) e he, assigned_axisBin a events (h a ha) e⟩
  refine ⟨_, C23_row_major _ _ h1 0 (by decide), ?_⟩
  have hzip : ((axes.map (Axis.action e)).map (·.extent)).zip (axes.map (axisBin e)) = axes.map fun a => ((a.size : Int), axisBin e a) := by
    rw [List.map_map, List.zip_map', ]
    refine List.map_congr_left fun a ha => ?_
    simp only [Function.comp, size_eq a events (h a ha) e]
  rw [hzip]
  by_cases hall : ∃ js, Belongs axes js e
  · obtain ⟨js, hjs⟩ := hall
    have key : ∀ (l : List (Axis α γ E)) (js : List Nat) (acc : Nat), (∀ a ∈ l, a ∈ axes) → Belongs l js e →
        combineAxes (l.map fun a => ((a.size : Int), axisBin e a)) acc = (horner (l.map Axis.size) js acc : Nat) ∧ List.Forall₂ (· < ·) js (l.map Axis.size) := by
      intro l
      induction l with
      | nil => rintro js acc _ ⟨⟩; exact ⟨rfl, .nil⟩
      | cons a l ih =>
        rintro js acc hl (_ | ⟨h2, h3⟩)
        rename_i j js
        have ha := h a (hl a (by simp))
        simp only [List.map_cons, combineAxes, (axisBin_iff a events ha e j).2 h2]
        have := ih js (acc * a.size + j) (fun a' ha' => hl a' (by simp [ha'])) h3
        refine ⟨?_, .cons (has_lt a events ha e he j h2) this.2⟩
        simp only [horner]
        rw [← this.1]
        push_cast
        rfl
    obtain ⟨h2, h3⟩ := key axes js 0 (fun _ h => h) hjs
    have hjm := (mem_positions _ _).2 h3
    have hn := positions_horner (axes.map Axis.size)
    have hmem : ∀ is ∈ positions (axes.map Axis.size), horner (axes.map Axis.size) is 0 < volume axes := by
      intro is his
      have : horner (axes.map Axis.size) is 0 ∈ List.range (axes.map Axis.size).prod := by
        rw [← hn]; exact List.mem_map_of_mem his
      simpa [volume] using this
    simp only [Nat.cast_zero] at h2
    rw [h2]
    refine ⟨by have := hmem js hjm; omega, fun is his => ?_⟩
    constructor
    · intro heq
      have heq : horner (axes.map Axis.size) js 0 = horner (axes.map Axis.size) is 0 := by omega
      have hnd : ((positions (axes.map Axis.size)).map (fun is => horner (axes.map Axis.size) is 0)).Nodup := by rw [hn]; exact List.nodup_range
      have := List.inj_on_of_nodup_map hnd hjm his heq
      exact this ▸ hjs
    · intro hb
      have : is = js := by
        clear hjm h3 h2 hzip h1 hn hmem his key
        induction axes generalizing is js with
        | nil => cases hb; cases hjs; rfl
        | cons a l ih =>
          cases hb with
          | cons a1 a2 =>
            cases hjs with
            | cons b1 b2 =>
              rw [has_unique a events (h a (by simp)) e a1 b1, ih (fun a' ha' => h a' (by simp [ha'])) _ b2 _ a2]
      rw [this]
  · have hnone : combineAxes (axes.map fun a => ((a.size : Int), axisBin e a)) 0 = -1 := by
      refine combineAxes_none _ _ ?_
      by_contra hc
      refine hall ?_
      have : ∀ (l : List (Axis α γ E)), (∀ a ∈ l, a ∈ axes) → ∃ js, Belongs l js e := by
        intro l
        induction l with
        | nil => intro _; exact ⟨[], .nil⟩
        | cons a l ih =>
          intro hl
          obtain ⟨js, hjs⟩ := ih fun a' ha' => hl a' (by simp [ha'])
          cases hb : axisBin e a with
          | none => exact absurd ⟨_, List.mem_map_of_mem (hl a (by simp)), hb⟩ hc
          | some i => exact ⟨i :: js, .cons ((axisBin_iff a events (h a (hl a (by simp))) e i).1 hb) hjs⟩
      exact this axes fun _ h => h
    rw [hnone]
    refine ⟨by omega, fun is his => ?_⟩
    constructor
    · intro h; omega
    · intro hb; exact absurd ⟨is, hb⟩ hall

/-! ### Nested lists -/

theorem Rows.mapM_eq {A B : Type} (f : A → Except Err B) (g : A → B) : ∀ (n : Nat) (xs : Rows A n), (∀ x ∈ xs.flat, f x = .ok (g x)) → Rows.mapM f xs = .ok (Rows.map g xs)
  | 0, x, h => h x (List.mem_singleton.mpr rfl)
  | n + 1, xs, h => by
    have : ∀ l : List (Rows A n), (∀ x ∈ l, Rows.mapM f x = .ok (Rows.map g x)) → List.mapM (Rows.mapM f) l = .ok (List.map (Rows.map g) l) := by
      intro l
      induction l with
      | nil => intro _; rfl
      | cons x l ih =>
        intro hl
        rw [List.mapM_cons, hl x (by simp), ih fun y hy => hl y (by simp [hy])]
        rfl
    exact this xs fun x hx => Rows.mapM_eq f g n x fun y hy => h y (List.mem_flatMap.mpr ⟨x, hx, hy⟩)

/-- The index computed for an event. -/
private def indexOf (axes : List (Axis α γ E)) (e : E) : Int :=
  match runActions (axes.map (Axis.action e)) 0 with
  | .ok t => t
  | .error _ => 0

private theorem indexOf_spec (axes : List (Axis α γ E)) (events : List E) (h : ∀ a ∈ axes, a.Ok events) (e : E) (he : e ∈ events) :
    target axes e = .ok (indexOf axes e, e) ∧ indexOf axes e < volume axes ∧
      ∀ is ∈ positions (axes.map Axis.size), (indexOf axes e = (horner (axes.map Axis.size) is 0 : Nat) ↔ Belongs axes is e) := by
  obtain ⟨t, h1, h2, h3⟩ := index_of_event axes events h e he
  have : indexOf axes e = t := by rw [indexOf, h1]
  rw [this]
  exact ⟨by rw [target, h1], h2, h3⟩

/-- An input bin with the indices. -/
private def indexed (axes : List (Axis α γ E)) (events : List E) : InputBin E := ⟨0, volume axes, events.map fun e => (indexOf axes e, e)⟩

private theorem inputBin_eq (axes : List (Axis α γ E)) (all events : List E) (h : ∀ a ∈ axes, a.Ok all) (hs : ∀ e ∈ events, e ∈ all) :
    BinTable.inputBin axes events = .ok (indexed axes events) := by
  have : events.mapM (target axes) = .ok (events.map fun e => (indexOf axes e, e)) := by
    induction events with
    | nil => rfl
    | cons e es ih =>
      rw [List.mapM_cons, (indexOf_spec axes all h e (hs e (by simp))).1, ih fun e' he' => hs e' (by simp [he'])]
      rfl
  rw [BinTable.inputBin, this]
  rfl

theorem contents_ok {mapper : Except Err (Mapped E)} {order : Mapped E → List (Int × E)} {m : Mapped E} {buf : List (Option E)} {bins : List (List E)} (h1 : mapper = .ok m)
    (h2 : buffer m (order m) = .ok buf) (h3 : readBins buf (binsFromSizes 0 m.sizes) = some bins) : contents mapper order = .ok bins := by
  simp only [contents, h1, h2, h3]

open Classical in
/-- **C78**: every bin of the output holds exactly those events of the input bins at its position that belong to it along all of its dimensions, in the order of the input. This is so for any number
of axes of any kind, whatever the order of the writes of the threads, with one or two stages. (The order of the input bins of one position is that of the nested lists, see C20.) -/
theorem C78_bin {n : Nat} (root : Nat → Nat) (axes : List (Axis α γ E)) (spans : List (Rows (List E) n)) (shape : List Nat)
    (order1 : Mapped (Int × E) → List (Int × (Int × E))) (order : Mapped E → List (Int × E))
    (hroot : ∀ k, 0 < k → 0 < root k) (hshape : ∀ s ∈ spans, s.HasShape shape) (hax : ∀ a ∈ axes, a.Ok (spans.flatMap fun s => s.flat.flatten))
    (ho1 : ∀ m, (order1 m).Perm m.writes.flatten) (ho : ∀ m, (order m).Perm m.writes.flatten) :
    binData root axes spans order1 order =
      .ok (spans.flatMap fun s => (positions (axes.map Axis.size)).map fun p => s.flat.flatten.filter fun e => decide (Belongs axes p e)) := by
  set all := spans.flatMap fun s => s.flat.flatten with hall
  have hmem : ∀ s ∈ spans, ∀ b ∈ s.flat, ∀ e ∈ b, e ∈ all := fun s hs b hb e he =>
    List.mem_flatMap.2 ⟨s, hs, List.mem_flatten.2 ⟨b, hb, he⟩⟩
  -- the indices
  have hin : spans.mapM (Rows.mapM (BinTable.inputBin axes)) = .ok (spans.map (Rows.map (indexed axes))) := by
    have : ∀ l : List (Rows (List E) n), (∀ s ∈ l, s ∈ spans) → l.mapM (Rows.mapM (BinTable.inputBin axes)) = .ok (l.map (Rows.map (indexed axes))) := by
      intro l
      induction l with
      | nil => intro _; rfl
      | cons s l ih =>
        intro hl
        rw [List.mapM_cons, Rows.mapM_eq _ (indexed axes) n s fun b hb => inputBin_eq axes all b hax (hmem s (hl s (by simp)) b hb), ih fun s' hs' => hl s' (by simp [hs'])]
        rfl
    exact this spans fun _ h => h
  -- the considered bins
  have hbins : ∀ s ∈ spans.map (Rows.map (indexed axes)), ∀ b ∈ s.flat, b.offset = 0 ∧ b.nbin = (volume axes : Int) ∧ ∀ ie ∈ b.events, ie.1 < (volume axes : Int) := by
    intro s hs b hb
    obtain ⟨s0, hs0, rfl⟩ := List.mem_map.1 hs
    rw [Rows_flat_map] at hb
    obtain ⟨b0, hb0, rfl⟩ := List.mem_map.1 hb
    refine ⟨rfl, rfl, fun ie hie => ?_⟩
    obtain ⟨e, he, rfl⟩ := List.mem_map.1 hie
    exact (indexOf_spec axes all hax e (hmem s0 hs0 b0 hb0 e he)).2.1
  have hsh : ∀ s ∈ spans.map (Rows.map (indexed axes)), s.HasShape shape := by
    intro s hs
    obtain ⟨s0, hs0, rfl⟩ := List.mem_map.1 hs
    exact Rows_shape_map _ n shape s0 (hshape s0 hs0)
  -- the contents
  have hcont : binContents (volume axes) (spans.map (Rows.map (indexed axes))) =
      spans.flatMap fun s => (positions (axes.map Axis.size)).map fun p => s.flat.flatten.filter fun e => decide (Belongs axes p e) := by
    simp only [binContents, List.flatMap_map]
    refine List.flatMap_congr fun s hs => ?_
    rw [volume, ← positions_horner, List.map_map]
    refine List.map_congr_left fun p hp => ?_
    simp only [Function.comp, binContent]
    rw [Rows_flat_map, List.flatMap_map, List.filter_flatten, List.flatMap_def]
    congr 1
    refine List.map_congr_left fun b hb => ?_
    simp only [InputBin.assigned, indexed, List.filter_map, List.map_map]
    rw [show ((fun x : Int × E => x.2) ∘ fun e => (indexOf axes e, e)) = id from rfl, List.map_id]
    refine List.filter_congr fun e he => ?_
    simp only [Function.comp]
    refine decide_eq_decide.2 ?_
    rw [← (indexOf_spec axes all hax e (hmem s hs b hb e he)).2.2 p hp]
    constructor
    · rintro ⟨_, h2⟩; omega
    · intro h; exact ⟨by omega, by omega⟩
  -- one stage or two
  obtain ⟨m, h1, h2, h3⟩ := C20_binning_partial (volume axes) (spans.map (Rows.map (indexed axes)))
    (fun s hs b hb => by
      obtain ⟨a1, a2, a3⟩ := hbins s hs b hb
      exact ⟨by omega, by omega, by omega, fun ie hie => a2 ▸ a3 ie hie⟩)
    (fun s hs => Rows_mono_const InputBin.range (0, (volume axes : Int)) n shape s (hsh s hs) fun b hb => by
      simp only [InputBin.range, (hbins s hs b hb).1, (hbins s hs b hb).2.1, zero_add])
  simp only [binData, hin, mapper, contents]
  by_cases hlen : 16 * 1024 < volume axes
  · obtain ⟨m', m2, g1, g2, g3, g4⟩ := C22_two_stage (volume axes) (root (volume axes)) (hroot _ (by omega)) (spans.map (Rows.map (indexed axes))) shape hsh hbins order1 ho1
    rw [g1] at h1
    injection h1 with h1
    subst h1
    obtain ⟨g5, g6⟩ := g4 (order m') (order m2) (ho m') (ho m2)
    obtain ⟨buf, b1, b2, b3⟩ := h3 (order m') (ho m')
    simp only [if_pos hlen, g2, g5, b1, g3, b3, hcont]
  · obtain ⟨buf, b1, b2, b3⟩ := h3 (order m) (ho m)
    simp only [if_neg hlen, h1, b1, b3, hcont]

open Classical in
/-- **C78** (tables): binning a table gives in every bin the rows that belong to it, in the order of the table, whatever the number of parts the table is split into for threading. -/
theorem C78_table (root : Nat → Nat) (axes : List (Axis α γ E)) (table : List E) (order1 : Mapped (Int × E) → List (Int × (Int × E))) (order : Mapped E → List (Int × E))
    (hroot : ∀ k, 0 < k → 0 < root k) (hax : ∀ a ∈ axes, a.Ok table) (ho1 : ∀ m, (order1 m).Perm m.writes.flatten) (ho : ∀ m, (order m).Perm m.writes.flatten) :
    binTable root axes table order1 order = .ok ((positions (axes.map Axis.size)).map fun p => table.filter fun e => decide (Belongs axes p e)) := by
  have hone : ∀ (parts : Rows (List E) 1) (k : Nat), parts.HasShape [k] → parts.flat.flatten = table →
      binData (n := 1) root axes [parts] order1 order = .ok ((positions (axes.map Axis.size)).map fun p => table.filter fun e => decide (Belongs axes p e)) := by
    intro parts k h1 h2
    have h := C78_bin root axes [parts] [k] order1 order hroot (by simpa using h1) (by simpa [h2] using hax) ho1 ho
    rw [h]
    simp only [List.flatMap_cons, List.flatMap_nil, List.append_nil, h2]
  refine hone _ (pretendBins table.length).length ⟨List.length_map _, fun _ _ => rfl⟩ ?_
  have hf : ∀ l : List (List E), Rows.flat (n := 1) l = l := by
    intro l
    change List.flatMap (fun x => [x]) l = l
    simp
  exact (congrArg List.flatten (hf _)).trans (flatten_rows table)

/-- **C78** (an event is in at most one bin). -/
theorem C78_once (axes : List (Axis α γ E)) (events : List E) (hax : ∀ a ∈ axes, a.Ok events) (e : E) (p q : List Nat) (hp : Belongs axes p e) (hq : Belongs axes q e) : p = q := by
  induction axes generalizing p q with
  | nil => cases hp; cases hq; rfl
  | cons a l ih =>
    cases hp with
    | cons a1 a2 =>
      cases hq with
      | cons b1 b2 => rw [has_unique a events (hax a (by simp)) e a1 b1, ih (fun a' ha' => hax a' (by simp [ha'])) _ _ a2 b2]

private theorem positions_append : ∀ ns ms : List Nat, positions (ns ++ ms) = (positions ns).flatMap fun p => (positions ms).map (p ++ ·)
  | [], ms => by simp [positions]
  | n :: ns, ms => by
    simp only [List.cons_append, positions, positions_append ns ms, List.flatMap_assoc, List.flatMap_map, List.map_flatMap, List.map_map]
    rfl

private theorem belongs_append (axes axes' : List (Axis α γ E)) (p q : List Nat) (e : E) (h : p.length = axes.length) : Belongs (axes ++ axes') (p ++ q) e ↔ Belongs axes p e ∧ Belongs axes' q e := by
  induction axes generalizing p with
  | nil =>
    rw [List.length_nil, List.length_eq_zero_iff] at h
    subst h
    simp [Belongs]
  | cons a l ih =>
    cases p with
    | nil => simp at h
    | cons i p =>
      have := ih p (by simpa using h)
      simp only [Belongs, List.cons_append, List.forall₂_cons] at this ⊢
      rw [this, and_assoc]

/-- **C78** (in two steps): binning along some dimensions and then along further ones gives the same bins, with the same order of events, as binning along all of them at once. -/
theorem C78_successive (root : Nat → Nat) (axes axes' : List (Axis α γ E)) (table : List E) (order1 : Mapped (Int × E) → List (Int × (Int × E))) (order : Mapped E → List (Int × E))
    (hroot : ∀ k, 0 < k → 0 < root k) (hax : ∀ a ∈ axes ++ axes', a.Ok table) (ho1 : ∀ m, (order1 m).Perm m.writes.flatten) (ho : ∀ m, (order m).Perm m.writes.flatten) :
    ∃ bins, binTable root axes table order1 order = .ok bins ∧
      binData (n := 0) root axes' bins order1 order = binTable root (axes ++ axes') table order1 order := by
  classical
  refine ⟨_, C78_table root axes table order1 order hroot (fun a ha => hax a (by simp [ha])) ho1 ho, ?_⟩
  have hstep : ∀ spans : List (List E), (∀ s ∈ spans, ∀ e ∈ s, e ∈ table) → binData (n := 0) root axes' spans order1 order =
      .ok (spans.flatMap fun s => (positions (axes'.map Axis.size)).map fun p => s.filter fun e => decide (Belongs axes' p e)) := by
    intro spans hs
    have hfl : ∀ s : List E, (Rows.flat (α := List E) (n := 0) s).flatten = s := by
      intro s
      change List.flatten [s] = s
      simp
    have hok : ∀ a ∈ axes', a.Ok (spans.flatMap fun s => (Rows.flat (n := 0) s).flatten) := by
      intro a ha
      have h := hax a (by simp [ha])
      cases a with
      | bin => exact h
      | group => exact h
      | groupInt => exact h
      | existing n p =>
        intro e he
        obtain ⟨s, hs1, hs2⟩ := List.mem_flatMap.1 he
        exact h e (hs s hs1 e ((hfl s) ▸ hs2))
    have h := C78_bin (n := 0) root axes' spans [] order1 order hroot (fun _ _ => rfl) hok ho1 ho
    refine h.trans (congrArg Except.ok (List.flatMap_congr fun s _ => List.map_congr_left fun p _ => ?_))
    exact congrArg _ (hfl s)
  rw [hstep _ (fun s hs e he => by
    obtain ⟨p, _, rfl⟩ := List.mem_map.1 hs
    exact (List.mem_filter.1 he).1), C78_table root (axes ++ axes') table order1 order hroot hax ho1 ho]
  rw [List.map_append, positions_append, List.map_flatMap, List.flatMap_map]
  refine congrArg Except.ok (List.flatMap_congr fun p hp => ?_)
  rw [List.map_map]
  refine List.map_congr_left fun q _ => ?_
  rw [List.filter_filter]
  refine List.filter_congr fun e _ => ?_
  have hl : p.length = axes.length := by rw [((mem_positions _ _).1 hp).length_eq, List.length_map]
  simp only [Function.comp, belongs_append axes axes' p q e hl, Bool.decide_and]
  rw [Bool.and_comm]

/-! ### Binning along an existing dimension again -/

private theorem beginEdges_mono (edges : List α) : ∀ (coords : List α) (bin : Int), (bin :: beginEdges edges coords bin).Pairwise (· ≤ ·) := by
  have step : ∀ (c : α) (fuel : Nat) (bin : Int), bin ≤ beginEdgeStep edges c fuel bin := by
    intro c fuel
    induction fuel with
    | zero => intro bin; exact le_refl _
    | succ fuel ih =>
      intro bin
      unfold beginEdgeStep
      split
      · split
        · split
          · have := ih (bin + 1); omega
          · exact le_refl _
        · exact le_refl _
      · exact le_refl _
  intro coords
  induction coords with
  | nil => intro bin; simp [beginEdges]
  | cons c cs ih =>
    intro bin
    have h := ih (beginEdgeStep edges c edges.length bin)
    have hb := step c edges.length bin
    simp only [beginEdges]
    rw [List.pairwise_cons]
    refine ⟨?_, h⟩
    intro x hx
    rcases List.mem_cons.1 hx with rfl | hx
    · exact hb
    · exact hb.trans ((List.pairwise_cons.1 h).1 x hx)

private theorem endEdges_mono (edges : List α) : ∀ (coords : List α) (bin : Int), ((bin + 2) :: endEdges edges coords bin).Pairwise (· ≤ ·) := by
  have step : ∀ (c : α) (fuel : Nat) (bin : Int), bin ≤ endEdgeStep edges c fuel bin := by
    intro c fuel
    induction fuel with
    | zero => intro bin; exact le_refl _
    | succ fuel ih =>
      intro bin
      unfold endEdgeStep
      split
      · split
        · split
          · have := ih (bin + 1); omega
          · exact le_refl _
        · exact le_refl _
      · exact le_refl _
  intro coords
  induction coords with
  | nil => intro bin; simp [endEdges]
  | cons c cs ih =>
    intro bin
    have h := ih (endEdgeStep edges c edges.length bin)
    have hb := step c edges.length bin
    simp only [endEdges]
    rw [List.pairwise_cons]
    refine ⟨?_, h⟩
    intro x hx
    rcases List.mem_cons.1 hx with rfl | hx
    · omega
    · have := (List.pairwise_cons.1 h).1 x hx
      omega

theorem buildLoop_keeps (volume : Int) (guess' : List α → α → Int) : ∀ (acts : List (BuildAction α γ)) (s t : BuildState), s.offsetDims = true → buildLoop volume guess' acts s = .ok t →
    t.offset = s.offset ∧ t.nbin = s.nbin
  | [], s, t, _, h => by
    injection h with h
    subst h
    exact ⟨rfl, rfl⟩
  | a :: acts, s, t, hs, h => by
    have hp : buildStep volume guess' s a = plainStep s a.action := by
      obtain ⟨act, rel⟩ := a
      cases act <;> cases rel <;> simp [buildStep, hs]
    rw [buildLoop, hp, plainStep] at h
    cases hu : a.action.update s.index with
    | error err => rw [hu] at h; cases h
    | ok i =>
      rw [hu] at h
      exact buildLoop_keeps volume guess' acts { s with index := i } t hs h

theorem extent_prod (post : List (Axis α γ E)) (events : List E) (h : ∀ a ∈ post, a.Ok events) (e : E) :
    ((post.map fun a => (⟨a.action e, none⟩ : BuildAction α γ)).map fun a => a.action.extent) = post.map fun a => (a.size : Int) := by
  rw [List.map_map]
  exact List.map_congr_left fun a ha => size_eq a events (h a ha) e

private theorem rebin_event (guess' : List α → α → Int) (edges : List α) (linspace : Bool) (guess : α → Int) (coord : E → Option α) (post : List (Axis α γ E)) (binCoord : List α) (events : List E)
    (hs : Ascending edges) (hl : 2 ≤ edges.length) (hbc : binCoord.Pairwise (· < ·))
    (hguess : linspace = true → GuessOk edges guess ∧ ∀ b e, GuessOk (subEdges edges b e) (guess' (subEdges edges b e))) (hpost : ∀ a ∈ post, a.Ok events)
    (k : Nat) (left right : α) (hleft : binCoord[k]? = some left) (hright : binCoord[k + 1]? = some right) (b e : Int) (hrel : relevantBins edges binCoord k = some (b, e))
    (ev : E) (hev : ev ∈ events) (hv : ∀ v, coord ev = some v → left ≤ v ∧ v < right) :
    ∃ s, build guess' (⟨.bin edges linspace guess (coord ev), some (b, e, false)⟩ :: post.map fun a => ⟨a.action ev, none⟩) = .ok s ∧ s.index < (e - b - 1) * volume post ∧
      ∀ p ∈ positions ((edges.length - 1) :: post.map Axis.size),
        (0 ≤ s.index ∧ b * volume post + s.index = (horner ((edges.length - 1) :: post.map Axis.size) p 0 : Nat) ↔ Belongs (.bin edges linspace guess coord :: post) p ev) := by
  have hax : ∀ a ∈ Axis.bin edges linspace guess coord :: post, a.Ok events := by
    intro a ha
    rcases List.mem_cons.1 ha with rfl | ha
    · exact ⟨hs, hl, fun h => (hguess h).1⟩
    · exact hpost a ha
  have hlr : left < right := by
    obtain ⟨h1, h2⟩ := List.getElem?_eq_some_iff.1 hleft
    obtain ⟨h3, h4⟩ := List.getElem?_eq_some_iff.1 hright
    rw [← h2, ← h4]
    exact List.pairwise_iff_getElem.1 hbc k (k + 1) h1 h3 (by omega)
  have hasc : Ascending binCoord := hbc.imp le_of_lt
  obtain ⟨t, h1, h2, h3⟩ := index_of_event _ events hax ev hev
  have hall : List.Forall₂ (fun a r => Valid a ∧ Assigned a r) ((Axis.bin edges linspace guess coord :: post).map (Axis.action ev)) ((Axis.bin edges linspace guess coord :: post).map (axisBin ev)) := by
    rw [List.forall₂_map_left_iff, List.forall₂_map_right_iff, List.forall₂_same]
    exact fun a ha => ⟨valid_of_ok a events (hax a ha) ev hev, assigned_axisBin a events (hax a ha) ev⟩
  rw [C23_row_major _ _ hall 0 (by decide)] at h1
  injection h1 with h1
  obtain ⟨s, g1, -, g2, g3⟩ := C25_build_partial guess' [] (post.map fun a => ⟨a.action ev, none⟩) edges linspace guess (coord ev) binCoord k left right [] (post.map (axisBin ev))
    (axisBin ev (Axis.bin (γ := γ) edges linspace guess coord)) (by simp) .nil (by
      rw [List.map_map]
      exact (List.forall₂_cons.1 hall).2) hs hl hasc hleft hright hlr hv (axisBin_iff _ events (hax _ (by simp)) ev) (fun h => (hguess h).2)
  rw [hrel] at g1
  have hz : ((([] : List (BuildAction α γ)).map (·.action.extent)) ++ ((edges.length : Int) - 1) :: (post.map fun a => (⟨a.action ev, none⟩ : BuildAction α γ)).map (·.action.extent)).zip
      ([] ++ axisBin ev (Axis.bin (γ := γ) edges linspace guess coord) :: post.map (axisBin ev)) =
      ((List.map (Axis.action ev) (Axis.bin edges linspace guess coord :: post)).map (·.extent)).zip (List.map (axisBin ev) (Axis.bin edges linspace guess coord :: post)) := by
    simp [Axis.action, AxisAction.extent, Function.comp_def]
  rw [hz, h1] at g2 g3
  -- the considered bins
  obtain ⟨b', e', hrel', hbe, hel, _⟩ := C25_relevant_bins edges binCoord hs hl hasc k left right left hleft hright ⟨le_refl _, hlr⟩
  rw [hrel] at hrel'
  simp only [Option.some.injEq, Prod.mk.injEq] at hrel'
  obtain ⟨rfl, rfl⟩ := hrel'
  have hprod : (post.map fun a => (a.size : Int)).prod = (volume post : Int) := by
    simp only [volume]
    clear * -
    induction post with
    | nil => rfl
    | cons a l ih => simp only [List.map_cons, List.prod_cons, ih]; push_cast; rfl
  have hoff : s.offset = b' * volume post ∧ s.nbin = ((e' : Int) - b' - 1) * volume post := by
    have hg := g1
    simp only [build, List.nil_append, Option.map_some, List.map_cons, extent_prod post events hpost ev, List.prod_cons, hprod, buildLoop, buildStep, relevantStep,
      show (AxisAction.bin (γ := γ) edges linspace guess (coord ev)).extent = (edges.length : Int) - 1 from rfl,
      Bool.false_eq_true, if_false] at hg
    rw [Int.mul_tdiv_cancel_left _ (by omega)] at hg
    split at hg
    · cases hg
    · rename_i st hst
      split at hst
      · cases hst
      · injection hst with hst
        have := buildLoop_keeps _ guess' _ st s (by rw [← hst]; rfl) hg
        rw [← hst] at this
        exact this
  refine ⟨s, g1, ?_, ?_⟩
  · by_cases ht : t = -1
    · have := g2 ht
      have hv0 : 0 ≤ ((e' : Int) - b' - 1) * volume post := Int.mul_nonneg (by omega) (by omega)
      omega
    · have := g3 ht
      rw [hoff.2] at this
      exact this.2.2
  · intro p hp
    rw [← h3 p hp]
    by_cases ht : t = -1
    · have := g2 ht
      have hn : t ≠ (horner ((edges.length - 1) :: post.map Axis.size) p 0 : Nat) := by omega
      constructor
      · rintro ⟨h, _⟩; omega
      · intro h; exact absurd h hn
    · have hg := g3 ht
      rw [hoff.1] at hg
      constructor
      · rintro ⟨_, h⟩
        rw [← hg.1]; exact h
      · intro h
        rw [← hg.1] at h
        exact ⟨hg.2.1, h⟩

private theorem relevantBins_mono (edges binCoord : List α) (i j : Nat) (hij : i ≤ j) (b e b' e' : Int) (h : relevantBins edges binCoord i = some (b, e)) (h' : relevantBins edges binCoord j = some (b', e')) :
    b ≤ b' ∧ e ≤ e' := by
  have hget : ∀ k b e, relevantBins edges binCoord k = some (b, e) → (beginEdges edges binCoord.dropLast 0)[k]? = some b ∧ (endEdges edges binCoord.tail 0)[k]? = some e := by
    intro k b e hk
    unfold relevantBins at hk
    split at hk
    · rename_i x y hx hy
      simp only [Option.some.injEq, Prod.mk.injEq] at hk
      rw [hx, hy, hk.1, hk.2]
      exact ⟨rfl, rfl⟩
    · cases hk
  have hle : ∀ (l : List Int) (x y : Int), l.Pairwise (· ≤ ·) → l[i]? = some x → l[j]? = some y → x ≤ y := by
    intro l x y hl hx hy
    obtain ⟨h1, rfl⟩ := List.getElem?_eq_some_iff.1 hx
    obtain ⟨h2, rfl⟩ := List.getElem?_eq_some_iff.1 hy
    rcases Nat.lt_or_eq_of_le hij with hlt | rfl
    · exact List.pairwise_iff_getElem.1 hl i j h1 h2 hlt
    · exact le_refl _
  obtain ⟨h1, h2⟩ := hget i b e h
  obtain ⟨h3, h4⟩ := hget j b' e' h'
  exact ⟨hle _ b b' (List.pairwise_cons.1 (beginEdges_mono edges _ 0)).2 h1 h3, hle _ e e' (List.pairwise_cons.1 (endEdges_mono edges _ 0)).2 h2 h4⟩

open Classical in
/-- **C78** (binning along an existing dimension again): if the input has strictly ascending bin edges along the dimension and every event is in its bin, then restricting the search to the output bins
that overlap with the input bin changes nothing: every output bin holds the events that belong to it, input bin by input bin. -/
theorem C78_rebin (guess' : List α → α → Int) (edges : List α) (linspace : Bool) (guess : α → Int) (coord : E → Option α) (post : List (Axis α γ E)) (binCoord : List α) (spans : List (List (List E)))
    (order : Mapped E → List (Int × E)) (hs : Ascending edges) (hl : 2 ≤ edges.length) (hbc : binCoord.Pairwise (· < ·)) (hlen : ∀ s ∈ spans, s.length + 1 = binCoord.length)
    (hin : ∀ s ∈ spans, ∀ k events, s[k]? = some events → ∀ e ∈ events, ∀ v, coord e = some v → ∀ left right, binCoord[k]? = some left → binCoord[k + 1]? = some right → left ≤ v ∧ v < right)
    (hguess : linspace = true → GuessOk edges guess ∧ ∀ b e, GuessOk (subEdges edges b e) (guess' (subEdges edges b e)))
    (hpost : ∀ a ∈ post, a.Ok (spans.flatMap List.flatten)) (ho : ∀ m, (order m).Perm m.writes.flatten) :
    rebinData guess' edges linspace guess coord post binCoord spans order =
      .ok (spans.flatMap fun s => (positions ((edges.length - 1) :: post.map Axis.size)).map fun p => s.flatten.filter fun e => decide (Belongs (.bin edges linspace guess coord :: post) p e)) := by
  set all := spans.flatMap List.flatten with hall
  let act : Int × Int → E → List (BuildAction α γ) := fun be ev => ⟨.bin edges linspace guess (coord ev), some (be.1, be.2, false)⟩ :: post.map fun a => ⟨a.action ev, none⟩
  let rel : Nat → Int × Int := fun k => (relevantBins edges binCoord k).getD (0, 0)
  let index : Int × Int → E → Int := fun be ev => match build guess' (act be ev) with
    | .ok s => s.index
    | .error _ => 0
  let g : List E × Nat → InputBin E := fun p => ⟨(rel p.2).1 * volume post, ((rel p.2).2 - (rel p.2).1 - 1) * volume post, p.1.map fun ev => (index (rel p.2) ev, ev)⟩
  have hasc : Ascending binCoord := hbc.imp le_of_lt
  -- the bins considered for an input bin
  have hrel : ∀ s ∈ spans, ∀ k, k < s.length → ∃ b e : Nat, relevantBins edges binCoord k = some ((b : Int), (e : Int)) ∧ b + 2 ≤ e ∧ e ≤ edges.length := by
    intro s hs' k hk
    have hk' := hlen s hs'
    obtain ⟨b, e, h1, h2, h3, _⟩ := C25_relevant_bins edges binCoord hs hl hasc k binCoord[k] binCoord[k + 1] binCoord[k] (List.getElem?_eq_getElem (by omega)) (List.getElem?_eq_getElem (by omega))
      ⟨le_refl _, List.pairwise_iff_getElem.1 hbc k (k + 1) (by omega) (by omega) (by omega)⟩
    exact ⟨b, e, h1, h2, h3⟩
  -- an event
  have hevent : ∀ s ∈ spans, ∀ k events, s[k]? = some events → ∀ ev ∈ events,
      (∃ st, build guess' (act (rel k) ev) = .ok st ∧ st.index = index (rel k) ev) ∧ index (rel k) ev < ((rel k).2 - (rel k).1 - 1) * volume post ∧
      ∀ p ∈ positions ((edges.length - 1) :: post.map Axis.size),
        (0 ≤ index (rel k) ev ∧ (rel k).1 * volume post + index (rel k) ev = (horner ((edges.length - 1) :: post.map Axis.size) p 0 : Nat) ↔ Belongs (.bin edges linspace guess coord :: post) p ev) := by
    intro s hs' k events hk ev hev
    obtain ⟨hk1, hk2⟩ := List.getElem?_eq_some_iff.1 hk
    obtain ⟨b, e, h1, h2, h3⟩ := hrel s hs' k hk1
    have hr : rel k = ((b : Int), (e : Int)) := by simp only [rel, h1, Option.getD_some]
    have hlen' := hlen s hs'
    have hl1 : binCoord[k]? = some (binCoord[k]'(by omega)) := List.getElem?_eq_getElem _
    have hl2 : binCoord[k + 1]? = some (binCoord[k + 1]'(by omega)) := List.getElem?_eq_getElem _
    have hmem : ev ∈ all := List.mem_flatMap.2 ⟨s, hs', List.mem_flatten.2 ⟨events, List.mem_of_getElem? hk, hev⟩⟩
    obtain ⟨st, g1, g2, g3⟩ := rebin_event guess' edges linspace guess coord post binCoord all hs hl hbc hguess hpost k _ _ hl1 hl2 b e h1 ev hmem
      (fun v hv => hin s hs' k events hk ev hev v hv _ _ hl1 hl2)
    have hi : index (rel k) ev = st.index := by
      simp only [index, act, hr, g1]
    rw [hi, hr]
    exact ⟨⟨st, g1, rfl⟩, g2, g3⟩
  -- all input bins
  have hbin : ∀ s ∈ spans, (s.zipIdx.mapM fun p => rebinInputBin guess' edges linspace guess coord post binCoord p.2 p.1) = .ok (s.zipIdx.map g) := by
    intro s hs'
    have hone : ∀ p ∈ s.zipIdx, rebinInputBin guess' edges linspace guess coord post binCoord p.2 p.1 = .ok (g p) := by
      intro p hp
      have hk : s[p.2]? = some p.1 := by
        have := List.mem_zipIdx_iff_getElem?.1 hp
        exact this
      obtain ⟨hk1, hk2⟩ := List.getElem?_eq_some_iff.1 hk
      obtain ⟨b, e, h1, h2, h3⟩ := hrel s hs' p.2 hk1
      have hr : rel p.2 = ((b : Int), (e : Int)) := by simp only [rel, h1, Option.getD_some]
      have hm : ∀ l : List E, (∀ ev ∈ l, ev ∈ p.1) → (l.mapM fun ev => (build guess' (act (rel p.2) ev)).map fun st => (st.index, ev)) = .ok (l.map fun ev => (index (rel p.2) ev, ev)) := by
        intro l
        induction l with
        | nil => intro _; rfl
        | cons ev l ih =>
          intro hsub
          obtain ⟨⟨st, e1, e2⟩, _⟩ := hevent s hs' p.2 p.1 hk ev (hsub ev (by simp))
          rw [List.mapM_cons, ih fun ev' he' => hsub ev' (by simp [he']), e1]
          simp only [Except.map, e2]
          rfl
      have hm := hm p.1 fun _ h => h
      simp only [act, hr] at hm
      simp only [rebinInputBin, h1, hm]
      simp only [g, hr]
      rw [Int.mul_tdiv_cancel_left _ (by omega)]
    generalize s.zipIdx = l at hone
    induction l with
    | nil => rfl
    | cons p l ih =>
      rw [List.mapM_cons, hone p (by simp), ih fun q hq => hone q (by simp [hq])]
      rfl
  have hmapM : (spans.mapM fun s => s.zipIdx.mapM fun p => rebinInputBin guess' edges linspace guess coord post binCoord p.2 p.1) = .ok (spans.map fun s => s.zipIdx.map g) := by
    generalize spans = l at hbin
    induction l with
    | nil => rfl
    | cons s l ih =>
      rw [List.mapM_cons, hbin s (by simp), ih fun q hq => hbin q (by simp [hq])]
      rfl
  -- one stage
  have hflat : ∀ l : List (InputBin E), Rows.flat (α := InputBin E) (n := 1) l = l := by
    intro l
    change List.flatMap (fun x => [x]) l = l
    simp
  have hgmem : ∀ s : List (List E), ∀ b ∈ s.zipIdx.map g, ∃ k events, s[k]? = some events ∧ b = g (events, k) := by
    intro s b hb
    obtain ⟨p, hp, rfl⟩ := List.mem_map.1 hb
    exact ⟨p.2, p.1, List.mem_zipIdx_iff_getElem?.1 hp, rfl⟩
  have hvol : ((((edges.length - 1) * volume post : Nat)) : Int) = ((edges.length : Int) - 1) * volume post := by
    rw [Nat.cast_mul, Nat.cast_sub (by omega)]; rfl
  obtain ⟨m, m1, m2, m3⟩ := C20_binning_partial (n := 1) ((edges.length - 1) * volume post) (spans.map fun s => s.zipIdx.map g)
    (by
      intro s hs' b hb
      obtain ⟨s0, hs0, rfl⟩ := List.mem_map.1 hs'
      have hb : b ∈ s0.zipIdx.map g := (hflat (s0.zipIdx.map g)) ▸ hb
      obtain ⟨k, events, hk, rfl⟩ := hgmem s0 b hb
      obtain ⟨hk1, _⟩ := List.getElem?_eq_some_iff.1 hk
      obtain ⟨b, e, h1, h2, h3⟩ := hrel s0 hs0 k hk1
      have hr : rel k = ((b : Int), (e : Int)) := by simp only [rel, h1, Option.getD_some]
      have hvn : (0 : Int) ≤ volume post := Int.natCast_nonneg _
      refine ⟨?_, ?_, ?_, ?_⟩
      · simp only [g, hr]; exact Int.mul_nonneg (by omega) hvn
      · simp only [g, hr]; exact Int.mul_nonneg (by omega) hvn
      · simp only [g, hr]
        rw [hvol, ← add_mul]
        exact Int.mul_le_mul_of_nonneg_right (by omega) hvn
      · intro ie hie
        obtain ⟨ev, hev, rfl⟩ := List.mem_map.1 hie
        exact (hevent s0 hs0 k events hk ev hev).2.1)
    (by
      intro s hs'
      obtain ⟨s0, hs0, rfl⟩ := List.mem_map.1 hs'
      refine ⟨fun _ _ => trivial, ?_⟩
      have : List.Pairwise (fun a b : InputBin E => a.range.1 ≤ b.range.1 ∧ a.range.2 ≤ b.range.2) (s0.zipIdx.map g) := by
        rw [List.pairwise_iff_getElem]
        intro i j hi hj hij
        simp only [List.length_map, List.length_zipIdx] at hi hj
        obtain ⟨b, e, h1, h2, h3⟩ := hrel s0 hs0 i hi
        obtain ⟨b', e', h1', h2', h3'⟩ := hrel s0 hs0 j hj
        have hm := relevantBins_mono edges binCoord i j (by omega) _ _ _ _ h1 h1'
        have hr : rel i = ((b : Int), (e : Int)) := by simp only [rel, h1, Option.getD_some]
        have hr' : rel j = ((b' : Int), (e' : Int)) := by simp only [rel, h1', Option.getD_some]
        have hvn : (0 : Int) ≤ volume post := Int.natCast_nonneg _
        simp only [List.getElem_map, List.getElem_zipIdx, Nat.zero_add, InputBin.range, g, hr, hr']
        rw [← add_mul, ← add_mul]
        exact ⟨Int.mul_le_mul_of_nonneg_right hm.1 hvn, Int.mul_le_mul_of_nonneg_right (by omega) hvn⟩
      exact this)
  obtain ⟨buf, b1, b2, b3⟩ := m3 (order m) (ho m)
  have hcont : binContents (n := 1) ((edges.length - 1) * volume post) (spans.map fun s => s.zipIdx.map g) =
      spans.flatMap fun s => (positions ((edges.length - 1) :: post.map Axis.size)).map fun p => s.flatten.filter fun e => decide (Belongs (.bin edges linspace guess coord :: post) p e) := by
    refine List.flatMap_map .. |>.trans ?_
    refine List.flatMap_congr fun s hs' => ?_
    rw [show (edges.length - 1) * volume post = ((edges.length - 1) :: post.map Axis.size).prod from rfl, ← positions_horner, List.map_map]
    refine List.map_congr_left fun p hp => ?_
    refine (congrArg (List.flatMap _) (hflat (s.zipIdx.map g))).trans ?_
    rw [List.flatMap_map, List.filter_flatten, List.flatMap_def]
    have hzip : s.map (List.filter fun e => decide (Belongs (.bin edges linspace guess coord :: post) p e)) =
        s.zipIdx.map fun q => q.1.filter fun e => decide (Belongs (.bin edges linspace guess coord :: post) p e) := by
      conv_lhs => rw [← List.zipIdx_map_fst 0 s]
      rw [List.map_map]
      rfl
    rw [hzip]
    congr 1
    refine List.map_congr_left fun q hq => ?_
    have hk : s[q.2]? = some q.1 := List.mem_zipIdx_iff_getElem?.1 hq
    simp only [InputBin.assigned, g, List.filter_map, List.map_map]
    rw [show ((fun x : Int × E => x.2) ∘ fun ev => (index (rel q.2) ev, ev)) = id from rfl, List.map_id]
    refine List.filter_congr fun e he => ?_
    simp only [Function.comp]
    exact decide_eq_decide.2 ((hevent s hs' q.2 q.1 hk e he).2.2 p hp)
  rw [hcont] at b3
  unfold rebinData
  rw [hmapM]
  exact contents_ok m1 b1 b3

private theorem filter_or_perm (p q r : E → Bool) (hdis : ∀ e, p e = true → q e = true → False) (hr : ∀ e, r e = (p e || q e)) (l : List E) : (l.filter p ++ l.filter q).Perm (l.filter r) := by
  induction l with
  | nil => exact .nil
  | cons e l ih =>
    cases hp : p e with
    | true =>
      have hq : q e = false := by
        cases h : q e with
        | false => rfl
        | true => exact (hdis e hp h).elim
      rw [List.filter_cons_of_pos hp, List.filter_cons_of_neg (by simp [hq]), List.filter_cons_of_pos (by rw [hr, hp]; rfl)]
      exact ih.cons e
    | false =>
      cases hq : q e with
      | true =>
        rw [List.filter_cons_of_neg (by simp [hp]), List.filter_cons_of_pos hq, List.filter_cons_of_pos (by rw [hr, hp, hq]; rfl)]
        exact List.perm_middle.trans (ih.cons e)
      | false =>
        rw [List.filter_cons_of_neg (by simp [hp]), List.filter_cons_of_neg (by simp [hq]), List.filter_cons_of_neg (by rw [hr, hp, hq]; decide)]
        exact ih

open Classical in
private theorem partition_perm (Q : Nat → E → Prop) (hdis : ∀ e i j, Q i e → Q j e → i = j) (l : List E) : ∀ n : Nat,
    ((List.range n).flatMap fun i => l.filter fun e => decide (Q i e)).Perm (l.filter fun e => decide (∃ i, i < n ∧ Q i e))
  | 0 => by simp
  | n + 1 => by
    rw [List.range_succ, List.flatMap_append]
    refine ((partition_perm Q hdis l n).append_right _).trans ?_
    simp only [List.flatMap_cons, List.flatMap_nil, List.append_nil]
    refine filter_or_perm _ _ _ ?_ ?_ l
    · intro e h1 h2
      obtain ⟨i, hi, hq⟩ := of_decide_eq_true h1
      have := hdis e i n hq (of_decide_eq_true h2)
      omega
    · intro e
      rw [← Bool.decide_or]
      refine decide_eq_decide.2 ⟨?_, ?_⟩
      · rintro ⟨i, hi, hq⟩
        rcases Nat.lt_succ_iff_lt_or_eq.1 hi with h | rfl
        · exact .inl ⟨i, h, hq⟩
        · exact .inr hq
      · rintro (⟨i, hi, hq⟩ | hq)
        · exact ⟨i, by omega, hq⟩
        · exact ⟨n, by omega, hq⟩

/-- **C78** (finer bins first): binning a table and then binning the result along the same dimension again gives the same events in every bin as binning the table with the second edges at once, provided that
every event in one of the second bins is in one of the first bins. The order within a bin is that of the first bins. -/
theorem C78_finer_first (root : Nat → Nat) (guess' : List α → α → Int) (fine edges : List α) (linspace linspace' : Bool) (guess guess'' : α → Int) (coord : E → Option α) (table : List E)
    (order1 : Mapped (Int × E) → List (Int × (Int × E))) (order : Mapped E → List (Int × E)) (hroot : ∀ k, 0 < k → 0 < root k)
    (hfine : fine.Pairwise (· < ·)) (hfl : 2 ≤ fine.length) (hs : Ascending edges) (hl : 2 ≤ edges.length)
    (hcover : ∀ e ∈ table, ∀ i, InBin edges i (coord e) → ∃ k, InBin fine k (coord e)) (hg : linspace = true → GuessOk fine guess)
    (hguess : linspace' = true → GuessOk edges guess'' ∧ ∀ b e, GuessOk (subEdges edges b e) (guess' (subEdges edges b e)))
    (ho1 : ∀ m, (order1 m).Perm m.writes.flatten) (ho : ∀ m, (order m).Perm m.writes.flatten) :
    ∃ bins twice once, binTable (γ := γ) root [.bin fine linspace guess coord] table order1 order = .ok bins ∧ rebinData (γ := γ) guess' edges linspace' guess'' coord [] fine [bins] order = .ok twice ∧
      binTable (γ := γ) root [.bin edges linspace' guess'' coord] table order1 order = .ok once ∧ List.Forall₂ List.Perm twice once := by
  classical
  have hasc : Ascending fine := hfine.imp le_of_lt
  have hpos : ∀ n : Nat, positions [n] = (List.range n).map fun i => [i] := by
    intro n
    simp only [positions, List.map_cons, List.map_nil]
    rw [List.map_eq_flatMap]
  have hb : ∀ (l : List α) (ls : Bool) (gs : α → Int) (i : Nat) (e : E), Belongs (γ := γ) [.bin l ls gs coord] [i] e ↔ InBin l i (coord e) := by
    intro l ls gs i e
    simp [Belongs, Axis.Has]
  refine ⟨_, _, _, C78_table root _ table order1 order hroot (by simpa [Axis.Ok] using ⟨hasc, hfl, hg⟩) ho1 ho, C78_rebin guess' edges linspace' guess'' coord [] fine _ order hs hl hfine ?_ ?_ hguess (by simp) ho,
    C78_table root _ table order1 order hroot (by simpa [Axis.Ok] using ⟨hs, hl, fun h => (hguess h).1⟩) ho1 ho, ?_⟩
  · intro s hs'
    rw [List.mem_singleton] at hs'
    subst hs'
    simp only [List.map_cons, List.map_nil, hpos, List.length_map, List.length_range, Axis.size]
    omega
  · intro s hs' k events hk e he v hv left right hleft hright
    rw [List.mem_singleton] at hs'
    subst hs'
    simp only [List.map_cons, List.map_nil, hpos, List.map_map, Axis.size] at hk
    rw [List.getElem?_map] at hk
    obtain ⟨k', hk', rfl⟩ := Option.map_eq_some_iff.1 hk
    have hkk : k' = k := by
      obtain ⟨h1, h2⟩ := List.getElem?_eq_some_iff.1 hk'
      rw [← h2, List.getElem_range]
    subst hkk
    have hin := (hb fine linspace guess k' e).1 (of_decide_eq_true (List.mem_filter.1 he).2)
    obtain ⟨v', lo, hi, h1, h2, h3, h4⟩ := hin
    rw [hv] at h1
    injection h1 with h1
    rw [hleft] at h2
    injection h2 with h2
    rw [hright] at h3
    injection h3 with h3
    subst h1 h2 h3
    exact h4
  · simp only [List.flatMap_cons, List.flatMap_nil, List.append_nil, List.map_cons, List.map_nil, hpos, List.map_map, Axis.size]
    rw [List.forall₂_map_left_iff, List.forall₂_map_right_iff, List.forall₂_same]
    intro i hi
    simp only [Function.comp_def]
    have hperm := (partition_perm (fun k e => Belongs (γ := γ) [.bin fine linspace guess coord] [k] e) (fun e k k' h1 h2 => by
      have e1 := ((C18_sorted_edges fine hasc (coord e)).1 k).2 ((hb _ _ _ _ _).1 h1)
      have e2 := ((C18_sorted_edges fine hasc (coord e)).1 k').2 ((hb _ _ _ _ _).1 h2)
      omega) table (fine.length - 1)).filter (fun e => decide (Belongs (γ := γ) [.bin edges linspace' guess'' coord] [i] e))
    rw [List.flatMap_def] at hperm
    refine hperm.trans (List.Perm.of_eq ?_)
    rw [List.filter_filter]
    refine List.filter_congr fun e he => ?_
    rw [← Bool.decide_and]
    refine decide_eq_decide.2 ⟨fun h => h.1, fun h => ⟨h, ?_⟩⟩
    obtain ⟨k, hk⟩ := hcover e he i ((hb _ _ _ _ _).1 h)
    refine ⟨k, ?_, (hb _ _ _ _ _).2 hk⟩
    obtain ⟨_, _, _, _, _, h3, _⟩ := hk
    obtain ⟨h5, _⟩ := List.getElem?_eq_some_iff.1 h3
    omega

/-- Events with a value and a label. -/
private def c78Events : List (Int × String) := [(5, "a"), (1, "b"), (0, "b"), (7, "a"), (1, "a"), (1, "b")]

private def c78Axes : List (Axis Int String (Int × String)) :=
  [.bin [0, 1, 6] false (fun _ => 0) fun e => some e.1, .group ["b", "a"] fun e => e.2]

private theorem c78Ok : ∀ a ∈ c78Axes, a.Ok c78Events := by
  intro a ha
  simp only [c78Axes, List.mem_cons, List.not_mem_nil, or_false] at ha
  rcases ha with rfl | rfl
  · exact ⟨by unfold Ascending; decide, by decide, by simp⟩
  · show List.Nodup _; decide

example := C78_table (fun k => k) c78Axes c78Events (fun m => m.writes.flatten) (fun m => m.writes.flatten.reverse) (fun _ h => h) c78Ok (fun _ => .refl _) (fun _ => List.reverse_perm _)

example : (match binTable (fun k => k) c78Axes c78Events (fun m => m.writes.flatten) (fun m => m.writes.flatten.reverse) with | .ok b => b | .error _ => []) =
    [[(0, "b")], [], [(1, "b"), (1, "b")], [(5, "a"), (1, "a")]] := by decide +kernel

example : positions (c78Axes.map Axis.size) = [[0, 0], [0, 1], [1, 0], [1, 1]] := by decide

/-- The label first, then the value. -/
example := C78_successive (fun k => k) [c78Axes[1]] [c78Axes[0]] c78Events (fun m => m.writes.flatten) (fun m => m.writes.flatten.reverse) (fun _ h => h)
  (by
    intro a ha
    refine c78Ok a ?_
    simp only [c78Axes, List.cons_append, List.nil_append, List.mem_cons, List.getElem_cons_succ, List.getElem_cons_zero] at ha ⊢
    tauto) (fun _ => .refl _) (fun _ => List.reverse_perm _)

/-- Bins `[0, 1)`, `[1, 3)`, `[3, 6)` first, then `[0, 3)` and `[3, 5)`. -/
example := C78_finer_first (γ := String) (fun k => k) (fun _ _ => 0) [0, 1, 3, 6] [0, 3, 5] false false (fun _ => 0) (fun _ => 0) (fun e : Int × String => some e.1) c78Events (fun m => m.writes.flatten)
  (fun m => m.writes.flatten) (fun _ h => h) (by decide) (by decide) (by unfold Ascending; decide) (by decide)
  (by
    rintro ⟨x, l⟩ hx i ⟨v, lo, hi, h1, h2, h3, h4, h5⟩
    injection h1 with h1
    subst h1
    simp only [c78Events, List.mem_cons, Prod.mk.injEq, List.not_mem_nil, or_false] at hx
    rcases hx with ⟨rfl, _⟩ | ⟨rfl, _⟩ | ⟨rfl, _⟩ | ⟨rfl, _⟩ | ⟨rfl, _⟩ | ⟨rfl, _⟩
    · exact ⟨2, 5, 3, 6, rfl, rfl, rfl, by decide⟩
    · exact ⟨1, 1, 1, 3, rfl, rfl, rfl, by decide⟩
    · exact ⟨0, 0, 0, 1, rfl, rfl, rfl, by decide⟩
    · match i with
      | 0 => simp at h3; omega
      | 1 => simp at h3; omega
      | i + 2 => simp at h3
    · exact ⟨1, 1, 1, 3, rfl, rfl, rfl, by decide⟩
    · exact ⟨1, 1, 1, 3, rfl, rfl, rfl, by decide⟩)
  (by simp) (by simp) (fun _ => .refl _) (fun _ => .refl _)

/-- The order within a bin is that of the first bins: `2` is before `0` in the table, but the bin `[0, 1)` is before `[1, 3)`. -/
example : (match binTable (γ := String) (fun k => k) [.bin [0, 1, 3] false (fun _ => 0) fun e : Int => some e] [2, 0] (fun m => m.writes.flatten) (fun m => m.writes.flatten) with
      | .ok bins => match rebinData (γ := String) (fun _ _ => 0) [0, 3, 5] false (fun _ => 0) (fun e : Int => some e) [] [0, 1, 3] [bins] (fun m => m.writes.flatten) with | .ok b => b | .error _ => []
      | .error _ => []) = [[0, 2], []] ∧
    (match binTable (γ := String) (fun k => k) [.bin [0, 3, 5] false (fun _ => 0) fun e : Int => some e] [2, 0] (fun m => m.writes.flatten) (fun m => m.writes.flatten) with
      | .ok b => b | .error _ => []) = [[2, 0], []] := by decide +kernel

/-- A second axis after the rebinned one. -/
example := C78_rebin (fun _ _ => 0) [0, 3, 5] false (fun _ => 0) (fun e : Int × String => some e.1) [.group ["b", "a"] fun e => e.2] [0, 1, 3] [[[(0, "b")], [(1, "a")]], [[], [(2, "a")]]]
  (fun m => m.writes.flatten) (by unfold Ascending; decide) (by decide) (by decide) (by decide)
  (by
    intro s hs k events hk e he v hv left right hl hr
    simp only [List.mem_cons, List.not_mem_nil, or_false] at hs
    injection hv with hv
    subst hv
    rcases hs with rfl | rfl
    · match k with
      | 0 => simp at hk hl hr; subst hk hl hr; simp at he; subst he; decide
      | 1 => simp at hk hl hr; subst hk hl hr; simp at he; subst he; decide
      | k + 2 => simp at hk
    · match k with
      | 0 => simp at hk; subst hk; simp at he
      | 1 => simp at hk hl hr; subst hk hl hr; simp at he; subst he; decide
      | k + 2 => simp at hk)
  (by simp) (by intro a ha; rw [List.mem_singleton] at ha; subst ha; show List.Nodup _; decide) (fun _ => .refl _)

end Scipp.Props
