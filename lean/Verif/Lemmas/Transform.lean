import Verif.Model.Transform
import Verif.Props.Sizes
import Verif.Props.View
import Verif.Props.MultiIndex
/-!
Lemmas about the execution of elementwise operations.
-/
namespace Scipp
open Sizes
variable {V : Type} {N : Nat}

/-! ### schedules -/

theorem Interleaving.perm {α : Type} {ts : List (List α)} {s : List α} (h : Interleaving ts s) :
    s.Perm ts.flatten := by
  induction h with
  | done h => rw [List.flatten_eq_nil_iff.2 h]
  | step _ ih =>
    simp only [List.flatten_append, List.flatten_cons, List.cons_append] at ih ⊢
    exact (ih.cons _).trans List.perm_middle.symm

/-- One thread: the only interleaving is its own list. -/
theorem Interleaving.single {α : Type} (l : List α) : Interleaving [l] l := by
  induction l with
  | nil => exact .done (by simp)
  | cons x l ih => exact .step (pre := []) (post := []) ih

/-- Running threads one after the other is an interleaving. -/
theorem Interleaving.serial {α : Type} : ∀ (ts : List (List α)), Interleaving ts ts.flatten
  | [] => .done (by simp)
  | t :: ts => by
    induction t with
    | nil =>
      have := serial ts
      simp only [List.flatten_cons, List.nil_append]
      have key : ∀ {ts s}, Interleaving (α := α) ts s → Interleaving ([] :: ts) s := by
        intro ts s h
        induction h with
        | done h => exact .done (by simpa using h)
        | @step pre t post x s h ih => exact .step (pre := [] :: pre) ih
      exact key this
    | cons x t ih => exact .step (pre := []) ih

theorem mem_intRange {b e k : Int} : k ∈ intRange b e ↔ b ≤ k ∧ k < e := by
  simp only [intRange, List.mem_map, List.mem_range]
  constructor
  · rintro ⟨j, hj, rfl⟩; omega
  · intro h; exact ⟨(k - b).toNat, by omega, by omega⟩

theorem nodup_intRange (b e : Int) : (intRange b e).Nodup :=
  List.nodup_range.map (fun i j h => by simpa using h)

theorem IsSplit.whole {n : Int} (h : 0 ≤ n) : IsSplit n [(0, n)] := by
  refine ⟨?_, by simp⟩
  intro b hb; simp only [List.mem_singleton] at hb; subst hb; simp [h]

theorem mapM_some {α β : Type} {f : α → Option β} {g : α → β} : ∀ {l : List α} {r : List β},
    (∀ x ∈ l, f x = some (g x)) → l.mapM f = some r → r = l.map g
  | [], r, _, h => by simpa using h.symm
  | x :: l, r, hf, h => by
    rw [List.mapM_cons, hf x (by simp)] at h
    cases hl : l.mapM f with
    | none => rw [hl] at h; simp at h
    | some r' =>
      rw [hl] at h
      have := mapM_some (fun y hy => hf y (List.mem_cons_of_mem _ hy)) hl
      simp at h
      rw [← h, this]; rfl

theorem mapM_some_eq {α β : Type} {f : α → Option β} {g : α → β} : ∀ {l : List α},
    (∀ x ∈ l, f x = some (g x)) → l.mapM f = some (l.map g)
  | [], _ => by simp
  | x :: l, hf => by
    rw [List.mapM_cons, hf x (by simp), mapM_some_eq (fun y hy => hf y (List.mem_cons_of_mem _ hy))]
    rfl

/-- If every block makes the calls of its positions, any run executes the calls of all
positions in some order. -/
theorem ParallelFor.perm {n : Int} {body : Int → Int → Option (List (Step V))} {g : Int → Step V}
    {mem mem' : Int → V} (h : ParallelFor n body mem mem')
    (hb : ∀ b e, 0 ≤ b → b ≤ e → e ≤ n → body b e = some ((intRange b e).map g)) :
    ∃ sched : List (Step V), sched.Perm ((intRange 0 n).map g) ∧ mem' = runSteps mem sched := by
  obtain ⟨blocks, threads, sched, hs, ht, hi, rfl⟩ := h
  refine ⟨sched, ?_, rfl⟩
  have hth : threads = blocks.map (fun b => (intRange b.1 b.2).map g) :=
    mapM_some (fun b hm => hb _ _ (hs.1 b hm).1 (hs.1 b hm).2.1 (hs.1 b hm).2.2) ht
  have h1 := hi.perm
  have h2 : threads.flatten = (blocks.flatMap (fun b => intRange b.1 b.2)).map g := by
    rw [hth, List.map_flatMap, List.flatMap_def]
  rw [h2] at h1
  exact h1.trans (hs.2.map g)

/-- There is a run. -/
theorem ParallelFor.exists {n : Int} (hn : 0 ≤ n) {body : Int → Int → Option (List (Step V))} {g : Int → Step V}
    (mem : Int → V)
    (hb : ∀ b e, 0 ≤ b → b ≤ e → e ≤ n → body b e = some ((intRange b e).map g)) :
    ParallelFor n body mem (runSteps mem ((intRange 0 n).map g)) :=
  ⟨[(0, n)], [(intRange 0 n).map g], _, .whole hn, by simp [hb 0 n (by omega) hn (by omega)], .single _, rfl⟩

/-! ### executing steps -/

theorem runSteps_other {mem : Int → V} {l : List (Step V)} {a : Int} (h : a ∉ l.map Step.cell) :
    runSteps mem l a = mem a := by
  induction l generalizing mem with
  | nil => rfl
  | cons s l ih =>
    simp only [List.map_cons, List.mem_cons, not_or] at h
    rw [runSteps, ih h.2, Function.update_of_ne h.1]

/-- Steps writing different cells and reading only their own cell and cells nobody writes
(`T`: all cells written) give the same result in any order. -/
theorem runSteps_cell {T : List Int} : ∀ {l : List (Step V)} {mem : Int → V}, (l.map Step.cell).Nodup →
    (∀ s ∈ l, s.cell ∈ T) →
    (∀ s ∈ l, ∀ m m' : Int → V, m s.cell = m' s.cell → (∀ a, a ∉ T → m a = m' a) → s.fn m = s.fn m') →
    ∀ s ∈ l, runSteps mem l s.cell = s.fn mem
  | [], _, _, _, _, s, hs => by simp at hs
  | t :: l, mem, hn, hT, hloc, s, hs => by
    simp only [List.map_cons, List.nodup_cons] at hn
    rw [runSteps]
    rcases List.mem_cons.1 hs with rfl | hs'
    · rw [runSteps_other hn.1, Function.update_self]
    · rw [runSteps_cell hn.2 (fun s hs => hT s (List.mem_cons_of_mem _ hs))
        (fun s hs => hloc s (List.mem_cons_of_mem _ hs)) s hs']
      refine hloc s hs _ _ ?_ ?_
      · rw [Function.update_of_ne]
        intro he
        exact hn.1 (he ▸ List.mem_map_of_mem hs')
      · intro a ha
        rw [Function.update_of_ne]
        intro he
        exact ha (he ▸ hT t (by simp))

/-! ### dims of operands -/

/-- `merge` with dims that are already included changes nothing. -/
theorem merge_of_includes {a b : Dims} (ha : WF a) (hb : WF b) (hai : Dim.invalid ∉ labels a)
    (h : ∀ p ∈ b, p ∈ a) : Dims.merge a b = .ok a := by
  have hbi : Dim.invalid ∉ labels b := by
    intro hc
    obtain ⟨n, hn⟩ := at?_ok_of_mem_labels hc
    exact hai (mem_labels (h _ (at?_ok_mem hn)))
  have hc : ∀ d x y, (d, x) ∈ a → (d, y) ∈ b → x = y := by
    intro d x y hx hy
    exact (Prod.mk.injEq .. ▸ (List.inj_on_of_nodup_map ha.1 hx (h _ hy) rfl) : d = d ∧ x = y).2
  rw [Dims.merge_eq a b ha hb hai hbi hc]
  congr 1
  have hp := Dims.mergePure_perm a b a b
  have hnb : Dims.nb a b = [] := by
    simp only [Dims.nb, List.filter_eq_nil_iff]
    intro p hp
    simp [contains_iff.2 (mem_labels (x := p.2) (h p hp))]
  rw [hnb, List.append_nil] at hp
  exact ((Dims.mergePure_sublist_left a b a b).eq_of_length hp.length_eq.symm).symm

theorem mergeAll_of_includes {a : Dims} (ha : WF a) (hai : Dim.invalid ∉ labels a) : ∀ {ds : List Dims},
    (∀ b ∈ ds, WF b ∧ ∀ p ∈ b, p ∈ a) → mergeAll a ds = .ok a
  | [], _ => rfl
  | b :: ds, h => by
    simp only [mergeAll, List.foldlM_cons]
    rw [merge_of_includes ha (h b (by simp)).1 hai (h b (by simp)).2]
    exact mergeAll_of_includes ha hai (fun b hb => h b (List.mem_cons_of_mem _ hb))

theorem mergeAll_ok : ∀ {ds : List Dims} {a m : Dims}, WF a → Dim.invalid ∉ labels a →
    (∀ b ∈ ds, WF b ∧ Dim.invalid ∉ labels b) → mergeAll a ds = .ok m →
    WF m ∧ Dim.invalid ∉ labels m ∧ (∀ p, p ∈ m ↔ p ∈ a ∨ ∃ b ∈ ds, p ∈ b)
  | [], a, m, ha, hai, _, h => by
    simp only [mergeAll, List.foldlM_nil, pure, Except.pure, Except.ok.injEq] at h
    subst h
    exact ⟨ha, hai, by simp⟩
  | b :: ds, a, m, ha, hai, hd, h => by
    simp only [mergeAll, List.foldlM_cons, bind, Except.bind] at h
    cases hm : Dims.merge a b with
    | error e => rw [hm] at h; simp at h
    | ok r =>
      rw [hm] at h
      have hcont := Props.C02_merge_content a b r ha (hd b (by simp)).1 hai (hd b (by simp)).2 hm
      have hri : Dim.invalid ∉ labels r := by
        intro hc
        obtain ⟨n, hn⟩ := at?_ok_of_mem_labels hc
        rcases (hcont _ n).1 (at?_ok_mem hn) with h1 | h1
        · exact hai (mem_labels h1)
        · exact (hd b (by simp)).2 (mem_labels h1)
      obtain ⟨h1, h2, h3⟩ := mergeAll_ok (Dims.merge_WF hm) hri (fun b hb => hd b (List.mem_cons_of_mem _ hb)) h
      refine ⟨h1, h2, fun p => ?_⟩
      rw [h3, hcont p.1 p.2]
      simp only [List.mem_cons, exists_eq_or_imp]
      tauto

theorem asViewStrides_ok {v : View} {t : Dims} {st : List Int} (hw : v.WF) (h : asViewStrides v t = .ok st) :
    st = (labels t).map (strideOf v.dims v.strides) := by
  simp only [asViewStrides] at h
  split at h
  · simp at h
  · rw [broadcast_mapM hw] at h
    injection h with h
    exact h.symm

theorem canBroadcast_of_includes {s t : Dims} (ht : (labels t).Nodup) (h : ∀ p ∈ s, p ∈ t) :
    canBroadcastFromTo s t = true := by
  simp only [canBroadcastFromTo, Bool.or_eq_true]
  right
  rw [List.all_eq_true]
  intro p hp
  cases hc : Sizes.at? s p.1 with
  | error e =>
    simp
  | ok n =>
    have : (p.1, n) ∈ t := h _ (at?_ok_mem hc)
    have : p.2 = n := by
      have := List.inj_on_of_nodup_map ht hp this rfl
      rw [Prod.ext_iff] at this
      exact this.2
    simp [this]

theorem asViewStrides_eq {v : View} {t : Dims} (hw : v.WF) (ht : (labels t).Nodup) (h : ∀ p ∈ v.dims, p ∈ t) :
    asViewStrides v t = .ok ((labels t).map (strideOf v.dims v.strides)) := by
  rw [asViewStrides, canBroadcast_of_includes ht h, broadcast_mapM hw]
  rfl

theorem labels_subset {s t : Dims} (h : ∀ p ∈ s, p ∈ t) : ∀ d ∈ labels s, d ∈ labels t := by
  intro d hd
  obtain ⟨n, hn⟩ := at?_ok_of_mem_labels hd
  exact mem_labels (h _ (at?_ok_mem hn))

theorem mapM_except_ok {α β : Type} {f : α → Except Err β} : ∀ {l : List α} {r : List β}, l.mapM f = .ok r →
    r.length = l.length ∧ ∀ i, (hi : i < l.length) → (hr : i < r.length) → f l[i] = .ok r[i]
  | [], r, h => by simp [pure, Except.pure] at h; subst h; simp
  | x :: l, r, h => by
    rw [List.mapM_cons] at h
    cases hx : f x with
    | error e => rw [hx] at h; simp [bind, Except.bind] at h
    | ok y =>
      cases hl : l.mapM f with
      | error e => rw [hx, hl] at h; simp [bind, Except.bind] at h
      | ok r' =>
        rw [hx, hl] at h
        simp [bind, Except.bind, pure, Except.pure] at h
        subst h
        obtain ⟨h1, h2⟩ := mapM_except_ok hl
        refine ⟨by simp [h1], fun i hi hr => ?_⟩
        cases i with
        | zero => simpa using hx
        | succ i => simpa using h2 i (by simpa using hi) (by simpa using hr)

theorem allStrides_ok {ins : Fin N → Operand V} {dims : Dims} {st : Fin N → List Int}
    (hw : ∀ i, (ins i).view.WF) (h : allStrides ins dims = .ok st) :
    ∀ i, st i = (labels dims).map (strideOf (ins i).view.dims (ins i).view.strides) := by
  simp only [allStrides, bind, Except.bind] at h
  split at h
  · simp at h
  · rename_i l hl
    injection h with h
    subst h
    intro i
    obtain ⟨h1, h2⟩ := mapM_except_ok hl
    have hi : i.val < l.length := by rw [h1]; simp
    have := h2 i.val (by simp) hi
    simp only [List.getElem_finRange] at this
    rw [← asViewStrides_ok (hw i) this]
    simp [hi]

theorem mapM_except_eq {α β : Type} {f : α → Except Err β} {g : α → β} : ∀ {l : List α},
    (∀ x ∈ l, f x = .ok (g x)) → l.mapM f = .ok (l.map g)
  | [], _ => rfl
  | x :: l, h => by
    rw [List.mapM_cons, h x (by simp), mapM_except_eq (fun y hy => h y (List.mem_cons_of_mem _ hy))]
    rfl

theorem allStrides_eq {ins : Fin N → Operand V} {dims : Dims} (hd : (labels dims).Nodup)
    (hw : ∀ i, (ins i).view.WF) (h : ∀ i, ∀ p ∈ (ins i).view.dims, p ∈ dims) :
    allStrides ins dims =
      .ok (fun i => (labels dims).map (strideOf (ins i).view.dims (ins i).view.strides)) := by
  have := mapM_except_eq (l := List.finRange N) (f := fun i => asViewStrides (ins i).view dims)
    (g := fun i => (labels dims).map (strideOf (ins i).view.dims (ins i).view.strides))
    (fun i _ => asViewStrides_eq (hw i) hd (h i))
  simp only [allStrides, this]
  simp [bind, Except.bind]

theorem wantedCalls_eq (dims : Dims) (strides : Fin N → List Int) (b e : Int) :
    Props.wantedCalls dims strides b e =
      (intRange b e).map (fun k i => addrAux dims (strides i) (coordsOf dims k)) := by
  simp [Props.wantedCalls, intRange]

end Scipp
