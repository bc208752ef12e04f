import Verif.Spec.BinsView
import Mathlib.Data.List.Basic
import Mathlib.Tactic.SplitIfs
import Mathlib.Data.List.Perm.Subperm

/-!
C93: coords, masks and data of the events of binned data.
-/

namespace Scipp.Props

open Scipp Scipp.BinsView

private theorem bv_holds {V : Type} (xs : List V) (p : Nat × Nat) (hp : p.1 ≤ p.2 ∧ p.2 ≤ xs.length) :
    Holds xs p ((xs.drop p.1).take (p.2 - p.1)) := by
  refine ⟨by simp; omega, fun i hi => ?_⟩
  rw [List.getElem?_take_of_lt hi, List.getElem?_drop]

private theorem bv_values {V : Type} (xs : List V) (idx : List (Nat × Nat))
    (hw : Within idx xs.length) :
    ∃ vs, idx.mapM (binOf (.along xs)) = Except.ok vs ∧ List.Forall₂ (Holds xs) idx vs := by
  induction idx with
  | nil => exact ⟨[], rfl, .nil⟩
  | cons p ps ih =>
    obtain ⟨vs, h1, h2⟩ := ih (fun q hq => hw q (List.mem_cons_of_mem _ hq))
    have hp := hw p List.mem_cons_self
    refine ⟨_ :: vs, ?_, .cons (bv_holds xs p hp) h2⟩
    have hb : binOf (.along xs) p = Except.ok ((xs.drop p.1).take (p.2 - p.1)) := by
      unfold binOf; simp only; rw [if_pos hp]
    simp only [List.mapM_cons, bind, Except.bind, hb, h1, pure, Except.pure]

private theorem bv_shows {V : Type} (x : Binned) (xs : List V) (hw : Within x.idx xs.length) :
    Shows (make x (.along xs)) x.idx xs := bv_values xs x.idx hw

private theorem bv_lookup_assign {V : Type} (d : List (Nat × Item V)) (k j : Nat) (x : Item V) :
    (dictAssign d k x).lookup j = if j = k then some x else d.lookup j := by
  induction d with
  | nil => simp only [dictAssign, List.lookup]; split <;> split <;> simp_all
  | cons p ps ih =>
    unfold dictAssign
    split
    · rename_i h
      simp only [List.lookup]
      by_cases hj : j = k
      · simp [hj]
      · have h2 : (j == k) = false := by simpa using hj
        have h3 : (j == p.1) = false := by simpa [h] using hj
        simp [h2, h3, hj]
    · rename_i h
      simp only [List.lookup]
      by_cases hj : j = p.1
      · subst hj; simp [h]
      · have h3 : (j == p.1) = false := by simpa using hj
        simp only [h3]; exact ih

private theorem bv_lookup_erase {V : Type} (d : List (Nat × Item V)) (k j : Nat)
    (hn : (d.map Prod.fst).Nodup) :
    (dictErase d k).lookup j = if j = k then none else d.lookup j := by
  induction d with
  | nil => simp [dictErase]
  | cons p ps ih =>
    simp only [List.map_cons, List.nodup_cons] at hn
    unfold dictErase
    split
    · rename_i h
      by_cases hj : j = k
      · subst hj
        simp only [if_true]
        rw [List.lookup_eq_none_iff]
        intro q hq
        have : q.1 ≠ p.1 := fun e => hn.1 (e ▸ List.mem_map_of_mem hq)
        simp; rw [← h]; exact fun e => this e.symm
      · have h3 : (j == p.1) = false := by simpa [h] using hj
        simp [List.lookup, h3, hj]
    · rename_i h
      by_cases hj : j = p.1
      · subst hj; simp [List.lookup, h]
      · have h3 : (j == p.1) = false := by simpa using hj
        simp only [List.lookup, h3]; exact ih hn.2

private theorem bv_dict_with {V : Type} (t : Table V) (w : Which) (d : List (Nat × Item V)) :
    (t.withDict w d).dict w = d := by cases w <;> rfl

private theorem bv_dict_other {V : Type} (t : Table V) (w w' : Which) (d : List (Nat × Item V))
    (h : w' ≠ w) : (t.withDict w d).dict w' = t.dict w' := by
  cases w <;> cases w' <;> first | rfl | exact absurd rfl h

private theorem bv_data_with {V : Type} (t : Table V) (w : Which) (d : List (Nat × Item V)) :
    (t.withDict w d).data = t.data := by cases w <;> rfl

private theorem bv_lookup_iff {V : Type} (d : List (Nat × Item V)) (hn : (d.map Prod.fst).Nodup)
    (k : Nat) (it : Item V) : d.lookup k = some it ↔ (k, it) ∈ d := by
  induction d with
  | nil => simp
  | cons q qs ih =>
    simp only [List.map_cons, List.nodup_cons] at hn
    rw [List.mem_cons, ← ih hn.2]
    by_cases hq : k = q.1
    · subst hq
      simp only [List.lookup, beq_self_eq_true, Option.some.injEq]
      constructor
      · rintro rfl; exact .inl rfl
      · rintro (e | e)
        · exact congrArg Prod.snd e.symm
        · have := (ih hn.2).1 e
          exact absurd (List.mem_map.2 ⟨_, this, rfl⟩) hn.1
    · have h3 : (k == q.1) = false := by simpa using hq
      simp only [List.lookup, h3]
      constructor
      · exact .inr
      · rintro (e | e)
        · exact absurd (congrArg Prod.fst e) hq
        · exact e

private theorem bv_lookup_none {V : Type} (d : List (Nat × Item V)) (k : Nat) :
    d.lookup k = none ↔ k ∉ d.map Prod.fst := by
  rw [List.lookup_eq_none_iff]
  constructor
  · intro h hk
    obtain ⟨q, hq, rfl⟩ := List.mem_map.1 hk
    simpa using h q hq
  · intro h q hq
    simp only [bne_iff_ne, ne_eq, Bool.not_eq_true, beq_eq_false_iff_ne]
    exact fun e => h (List.mem_map.2 ⟨q, hq, e.symm⟩)

private theorem bv_dict_eq {V : Type} [DecidableEq V] (a b : List (Nat × Item V))
    (hx : (a.map Prod.fst).Nodup) (hy : (b.map Prod.fst).Nodup) :
    (decide (a.length = b.length) && a.all (fun p => b.lookup p.1 == some p.2)) = true ↔
      ∀ k, a.lookup k = b.lookup k := by
  simp only [Bool.and_eq_true, decide_eq_true_eq, List.all_eq_true, beq_iff_eq]
  constructor
  · rintro ⟨hl, ha⟩ k
    have hsub : a.map Prod.fst ⊆ b.map Prod.fst := by
      intro j hj
      obtain ⟨q, hq, rfl⟩ := List.mem_map.1 hj
      exact List.mem_map.2 ⟨_, (bv_lookup_iff b hy _ _).1 (ha q hq), rfl⟩
    have hp := (hx.subperm hsub).perm_of_length_le (by simp [hl])
    cases hk : a.lookup k with
    | some it => exact (ha (k, it) ((bv_lookup_iff a hx _ _).1 hk)).symm
    | none =>
      have := (bv_lookup_none a k).1 hk
      exact ((bv_lookup_none b k).2 (fun hc => this (hp.mem_iff.2 hc))).symm
  · intro hk
    refine ⟨?_, fun p hp => by rw [← hk]; exact (bv_lookup_iff a hx _ _).2 hp⟩
    have hm : ∀ j, j ∈ a.map Prod.fst ↔ j ∈ b.map Prod.fst := fun j => by
      rw [← not_iff_not, ← bv_lookup_none, ← bv_lookup_none, hk]
    have h1 := (hx.subperm (fun j hj => (hm j).1 hj)).length_le
    have h2 := (hy.subperm (fun j hj => (hm j).2 hj)).length_le
    simp only [List.length_map] at h1 h2
    omega

/-! ### Reading -/

/-- **C93** reading a coord or mask of the events gives, for every bin, exactly the values of the
events of that bin, in order. -/
theorem C93_get {V : Type} (h : Heap V) (x : Binned) (w : Which) (k : Nat) (xs : List V)
    (hk : ((h x.ref).dict w).lookup k = some (.along xs))
    (hw : Within x.idx xs.length) :
    ∃ c, get h x w k = .ok c ∧ c.idx = x.idx ∧ c.dim = x.dim ∧ c.readonly = x.readonly ∧
      Shows c x.idx xs := by
  refine ⟨make x (.along xs), ?_, rfl, rfl, rfl, bv_shows x xs hw⟩
  simp only [BinsView.get, dictAt, hk]

/-- Two bins of a table of four events. -/
private def exTable : Table Nat :=
  ⟨[1, 1, 1, 1], [(7, .along [10, 20, 30, 40]), (8, .scalar 5)], [(3, .along [0, 1, 0, 1])], false⟩
private def exHeap : Heap Nat := fun _ => exTable
private def exVar : Binned := ⟨[(0, 1), (1, 4)], 9, 0, false⟩

example : ∃ c, get exHeap exVar .coords 7 = .ok c ∧ c.idx = exVar.idx ∧ c.dim = 9 ∧
    c.readonly = false ∧ Shows c [(0, 1), (1, 4)] [10, 20, 30, 40] :=
  C93_get exHeap exVar .coords 7 [10, 20, 30, 40] rfl
    (by intro p hp; simp [exVar] at hp; rcases hp with rfl | rfl <;> decide)
example : (match get exHeap exVar .coords 7 with | .ok c => c.values | .error e => .error e)
    = .ok [[10], [20, 30, 40]] := by decide

/-- **C93** reading an item that is not there is an error. -/
theorem C93_get_missing {V : Type} (h : Heap V) (x : Binned) (w : Which) (k : Nat)
    (hk : ((h x.ref).dict w).lookup k = none) : get h x w k = .error .notFound := by
  simp only [BinsView.get, dictAt, hk]

example : get exHeap exVar .masks 7 = .error .notFound := C93_get_missing _ _ _ _ rfl

/-- **C93** (violated) an item of the event table that does not depend on the event dimension is
handed out as if it did: the result claims to be binned but no bin of it can be read.  Iterating over
the items gives the plain value instead. -/
theorem C93_wrong_scalar {V : Type} (h : Heap V) (x : Binned) (w : Which) (k : Nat) (a : V)
    (hn : (((h x.ref).dict w).map Prod.fst).Nodup)
    (hk : ((h x.ref).dict w).lookup k = some (.scalar a)) (hx : x.idx ≠ []) :
    (∃ c, get h x w k = .ok c ∧ c.values = .error .slice) ∧
      (k, Seen.dense (.scalar a)) ∈ items h x w := by
  refine ⟨⟨make x (.scalar a), by simp only [BinsView.get, dictAt, hk], ?_⟩, ?_⟩
  · cases hi : x.idx with
    | nil => exact absurd hi hx
    | cons p ps =>
      simp only [Column.values, make, hi, List.mapM_cons, bind, Except.bind, binOf]
  · have : (k, Item.scalar a) ∈ (h x.ref).dict w := (bv_lookup_iff _ hn _ _).1 hk
    exact List.mem_map.2 ⟨_, this, rfl⟩

example : (∃ c, get exHeap exVar .coords 8 = .ok c ∧ c.values = .error .slice) ∧
    (8, Seen.dense (.scalar 5)) ∈ items exHeap exVar .coords :=
  C93_wrong_scalar exHeap exVar .coords 8 5 (by decide) rfl (by decide)

/-- **C93** (holds for items along the event dimension; see `C93_wrong_scalar`) iterating gives what
indexing gives. -/
theorem C93_items_partial {V : Type} (h : Heap V) (x : Binned) (w : Which) (k : Nat) (c : Column V)
    (hn : (((h x.ref).dict w).map Prod.fst).Nodup) :
    (k, Seen.bins c) ∈ items h x w ↔
      get h x w k = .ok c ∧ ∃ xs, ((h x.ref).dict w).lookup k = some (.along xs) := by
  have key : ∀ it : Item V, (k, it) ∈ (h x.ref).dict w ↔ ((h x.ref).dict w).lookup k = some it :=
    fun it => (bv_lookup_iff _ hn _ _).symm
  simp only [items, List.mem_map, BinsView.get, dictAt]
  constructor
  · rintro ⟨⟨j, it⟩, hm, he⟩
    simp only [Prod.mk.injEq] at he
    obtain ⟨rfl, he⟩ := he
    have hl := (key it).1 hm
    cases it with
    | scalar a => simp [makeValue] at he
    | along xs =>
      simp only [makeValue, Seen.bins.injEq] at he
      simp only [hl, he]
      exact ⟨trivial, xs, rfl⟩
  · rintro ⟨hg, xs, hl⟩
    simp only [hl, Except.ok.injEq] at hg
    exact ⟨(k, .along xs), (key _).2 hl, by simp only [makeValue, hg]⟩

example : (7, Seen.bins ⟨[(0, 1), (1, 4)], 9, .along [10, 20, 30, 40], false⟩)
    ∈ items exHeap exVar .coords :=
  (C93_items_partial exHeap exVar .coords 7 _ (by decide)).2 ⟨rfl, _, rfl⟩

/-! ### Setting -/

/-- **C93** setting a coord or mask works exactly when the variable and its table are writable, the
new variable has the same bins over the same dimension, and its buffer has as many events as the
table, or one more (or is a single value). -/
theorem C93_set_when {V : Type} (h : Heap V) (x : Binned) (w : Which) (k : Nat) (v : Column V) :
    (∃ h', BinsView.set h x w k v = .ok h') ↔
      x.readonly = false ∧ (h x.ref).readonly = false ∧ v.idx = x.idx ∧ v.dim = x.dim ∧
        ∀ xs, v.buffer = .along xs →
          xs.length = (h x.ref).data.length ∨ xs.length = (h x.ref).data.length + 1 := by
  unfold BinsView.set bufferMut checkAndGetBuf dictSet
  cases hr : x.readonly
  · simp only [Bool.false_eq_true, if_false]
    by_cases hi : v.idx = x.idx
    · by_cases hd : v.dim = x.dim
      · simp only [hi, hd, ne_eq, not_true_eq_false, if_false]
        cases ht : (h x.ref).readonly
        · simp only [Bool.false_eq_true, if_false]
          cases hb : v.buffer with
          | scalar a => simp [dimsFit]
          | along xs =>
            by_cases hf : xs.length = (h x.ref).data.length ∨
                xs.length = (h x.ref).data.length + 1
            · simp [dimsFit, hf]
            · simp [dimsFit, hf]
        · simp
      · simp [hi, hd]
    · simp [hi]
  · simp

example : ∃ h', BinsView.set exHeap exVar .coords 4
    ⟨[(0, 1), (1, 4)], 9, .along [5, 6, 7, 8], true⟩ = .ok h' :=
  (C93_set_when _ _ _ _ _).2 ⟨rfl, rfl, rfl, rfl, by intro xs e; cases e; exact .inl rfl⟩
example : ¬ ∃ h', BinsView.set exHeap exVar .coords 4
    ⟨[(0, 2), (2, 4)], 9, .along [5, 6, 7, 8], true⟩ = .ok h' := by
  rw [C93_set_when]; rintro ⟨-, -, h, -⟩; exact absurd h (by decide)

private theorem bv_set_eq {V : Type} (h h' : Heap V) (x : Binned) (w : Which) (k : Nat) (v : Column V)
    (hs : BinsView.set h x w k v = .ok h') :
    v.idx = x.idx ∧ v.dim = x.dim ∧ h' = h.put x.ref
      ((h x.ref).withDict w (dictAssign ((h x.ref).dict w) k v.buffer)) := by
  obtain ⟨h1, h2, h3, h4, h5⟩ := (C93_set_when h x w k v).1 ⟨h', hs⟩
  refine ⟨h3, h4, ?_⟩
  have hf : dimsFit (h x.ref).data.length v.buffer = true := by
    cases hb : v.buffer with
    | scalar a => rfl
    | along xs => simpa [dimsFit] using h5 xs hb
  simp only [BinsView.set, bufferMut, h1, checkAndGetBuf, h3, h4, dictSet, h2, hf,
    Bool.false_eq_true, if_false, if_true, ne_eq, not_true_eq_false, Except.ok.injEq] at hs
  exact hs.symm

/-- **C93** after setting an item, reading it gives back what was set. -/
theorem C93_set_get {V : Type} (h h' : Heap V) (x : Binned) (w : Which) (k : Nat) (v : Column V)
    (hs : BinsView.set h x w k v = .ok h') :
    ∃ c, get h' x w k = .ok c ∧ c.idx = v.idx ∧ c.dim = v.dim ∧ c.buffer = v.buffer ∧
      c.values = v.values := by
  obtain ⟨h3, h4, rfl⟩ := bv_set_eq h h' x w k v hs
  refine ⟨make x v.buffer, ?_, h3.symm, h4.symm, rfl, ?_⟩
  · have : ((h.put x.ref ((h x.ref).withDict w (dictAssign ((h x.ref).dict w) k v.buffer))) x.ref)
        = (h x.ref).withDict w (dictAssign ((h x.ref).dict w) k v.buffer) := by simp [Heap.put]
    simp only [BinsView.get, this, bv_dict_with, dictAt, bv_lookup_assign, if_true]
  · simp only [Column.values, make, h3]

example (h' : Heap Nat) (hs : BinsView.set exHeap exVar .coords 4
      ⟨[(0, 1), (1, 4)], 9, .along [5, 6, 7, 8], true⟩ = .ok h') :
    ∃ c, get h' exVar .coords 4 = .ok c ∧ c.values = .ok [[5], [6, 7, 8]] := by
  obtain ⟨c, h1, -, -, -, h2⟩ := C93_set_get _ _ _ _ _ _ hs
  exact ⟨c, h1, h2.trans (by decide)⟩

/-- **C93** setting an item changes nothing else: data, other items, the dict of the other kind, and
everything in other event tables are as before. -/
theorem C93_set_others {V : Type} (h h' : Heap V) (x y : Binned) (w w' : Which) (k j : Nat)
    (v : Column V) (hs : BinsView.set h x w k v = .ok h')
    (hne : y.ref ≠ x.ref ∨ w' ≠ w ∨ j ≠ k) :
    get h' y w' j = get h y w' j ∧ data h' y = data h y := by
  obtain ⟨h3, h4, rfl⟩ := bv_set_eq h h' x w k v hs
  by_cases hr : y.ref = x.ref
  · have ht : ((h.put x.ref ((h x.ref).withDict w (dictAssign ((h x.ref).dict w) k v.buffer))) y.ref)
        = (h x.ref).withDict w (dictAssign ((h x.ref).dict w) k v.buffer) := by simp [Heap.put, hr]
    constructor
    · simp only [BinsView.get, ht]; rw [hr]
      by_cases hw : w' = w
      · subst hw
        have hj : j ≠ k := by
          rcases hne with e | e | e
          · exact absurd hr e
          · exact absurd rfl e
          · exact e
        simp only [bv_dict_with, dictAt, bv_lookup_assign, hj, if_false]
      · simp only [bv_dict_other _ _ _ _ hw]
    · simp only [data, ht, bv_data_with]; rw [hr]
  · have ht : ((h.put x.ref ((h x.ref).withDict w (dictAssign ((h x.ref).dict w) k v.buffer))) y.ref)
        = h y.ref := by simp [Heap.put, hr]
    simp only [BinsView.get, data, ht, and_self]

example (h' : Heap Nat) (hs : BinsView.set exHeap exVar .coords 4
      ⟨[(0, 1), (1, 4)], 9, .along [5, 6, 7, 8], true⟩ = .ok h') :
    get h' exVar .coords 7 = get exHeap exVar .coords 7 :=
  (C93_set_others _ _ _ exVar _ .coords _ 7 _ hs (.inr (.inr (by decide)))).1

/-- **C93** the event table is shared: every variable over the same table, e.g., the array a slice was
taken of, sees the buffer that was set, through its own bins. -/
theorem C93_set_shared {V : Type} (h h' : Heap V) (x y : Binned) (w : Which) (k : Nat)
    (v : Column V) (hs : BinsView.set h x w k v = .ok h') (hr : y.ref = x.ref) :
    get h' y w k = .ok (make y v.buffer) := by
  obtain ⟨h3, h4, rfl⟩ := bv_set_eq h h' x w k v hs
  have ht : ((h.put x.ref ((h x.ref).withDict w (dictAssign ((h x.ref).dict w) k v.buffer))) y.ref)
      = (h x.ref).withDict w (dictAssign ((h x.ref).dict w) k v.buffer) := by simp [Heap.put, hr]
  simp only [BinsView.get, ht, bv_dict_with, dictAt, bv_lookup_assign, if_true]

example (h' : Heap Nat) (hs : BinsView.set exHeap (sliceBins exVar 0 1) .coords 4
      ⟨[(0, 1)], 9, .along [5, 6, 7, 8], true⟩ = .ok h') :
    get h' exVar .coords 4 = .ok ⟨[(0, 1), (1, 4)], 9, .along [5, 6, 7, 8], false⟩ :=
  C93_set_shared _ _ _ exVar _ _ _ hs rfl

private theorem bv_holds_congr {V : Type} (idx : List (Nat × Nat)) (xs ys : List V) (p : Nat × Nat)
    (zs : List V) (ha : ∀ q ∈ idx, q.2 ≤ p.1 ∨ p.2 ≤ q.1) (hso : SameOutside idx xs ys)
    (hz : Holds xs p zs) : Holds ys p zs := by
  refine ⟨hz.1, fun i hi => ?_⟩
  rw [hz.2 i hi]
  refine hso _ (fun q hq hc => ?_)
  rcases ha q hq with h | h <;> omega

/-- **C93** (holds when the buffer set agrees with the old one for the events of other bins; see
`C93_wrong_slice`) setting an item through a slice leaves the values in bins that are not part of the
slice as they were. -/
theorem C93_slice_partial {V : Type} (h h' : Heap V) (x y : Binned) (w : Which) (k : Nat)
    (v : Column V) (old new : List V) (hs : BinsView.set h x w k v = .ok h') (hr : y.ref = x.ref)
    (hold : ((h x.ref).dict w).lookup k = some (.along old)) (hnew : v.buffer = .along new)
    (hwo : Within y.idx old.length) (hwn : Within y.idx new.length)
    (hap : Apart x.idx y.idx) (hso : SameOutside x.idx new old) :
    ∃ c c', get h y w k = .ok c ∧ get h' y w k = .ok c' ∧ c'.values = c.values ∧
      Shows c' y.idx old := by
  have h1 : get h y w k = .ok (make y (.along old)) := by
    simp only [BinsView.get, hr, dictAt, hold]
  have h2 := C93_set_shared h h' x y w k v hs hr
  rw [hnew] at h2
  obtain ⟨vs, hv, hf⟩ := bv_shows y new hwn
  obtain ⟨us, hu, hg⟩ := bv_shows y old hwo
  have hf' : List.Forall₂ (Holds old) y.idx vs := by
    have : ∀ (l : List (Nat × Nat)) (vs : List (List V)), (∀ p ∈ l, p ∈ y.idx) →
        List.Forall₂ (Holds new) l vs → List.Forall₂ (Holds old) l vs := by
      intro l vs hl hf
      induction hf with
      | nil => exact .nil
      | cons hz _ ih =>
        refine .cons (bv_holds_congr x.idx new old _ _ ?_ hso hz)
          (ih (fun p hp => hl p (List.mem_cons_of_mem _ hp)))
        intro q hq
        exact hap q hq _ (hl _ List.mem_cons_self)
    exact this _ _ (fun p hp => hp) hf
  have huniq : vs = us := by
    have : ∀ (l : List (Nat × Nat)) (vs us : List (List V)), List.Forall₂ (Holds old) l vs →
        List.Forall₂ (Holds old) l us → vs = us := by
      intro l vs us ha hb
      induction ha generalizing us with
      | nil => cases hb; rfl
      | cons hz _ ih =>
        cases hb with
        | cons hz' hb' =>
          rw [ih _ hb']
          congr 1
          apply List.ext_getElem?
          intro i
          rename_i p zs _ _ _ zs' _
          by_cases hi : i < p.2 - p.1
          · rw [hz.2 i hi, hz'.2 i hi]
          · rw [List.getElem?_eq_none (by have := hz.1; omega),
              List.getElem?_eq_none (by have := hz'.1; omega)]
    exact this _ _ _ hf' hg
  exact ⟨_, _, h1, h2, by rw [hv, hu, huniq], vs, hv, hf'⟩

example (h' : Heap Nat) (hs : BinsView.set exHeap (sliceBins exVar 0 1) .coords 7
      ⟨[(0, 1)], 9, .along [11, 20, 30, 40], false⟩ = .ok h') :
    ∃ c c', get exHeap (sliceBins exVar 1 2) .coords 7 = .ok c ∧
      get h' (sliceBins exVar 1 2) .coords 7 = .ok c' ∧ c'.values = c.values ∧
      Shows c' [(1, 4)] [10, 20, 30, 40] :=
  C93_slice_partial exHeap h' (sliceBins exVar 0 1) (sliceBins exVar 1 2) .coords 7 _
    [10, 20, 30, 40] [11, 20, 30, 40] hs rfl rfl rfl
    (by intro p hp; simp [sliceBins, exVar] at hp; subst hp; decide)
    (by intro p hp; simp [sliceBins, exVar] at hp; subst hp; decide)
    (by intro p hp q hq; simp [sliceBins, exVar] at hp hq; subst hp hq; decide)
    (by
      intro i hi
      match i with
      | 0 => exact absurd ⟨by decide, by decide⟩ (hi (0, 1) (by decide))
      | i + 1 => rfl)

/-- **C93** (violated) setting an item through a slice of the first bin changes the values of the
other bin of the array the slice was taken of. -/
theorem C93_wrong_slice :
    ∃ (h h' : Heap Nat) (x : Binned) (v : Column Nat),
      BinsView.set h (sliceBins x 0 1) .coords 7 v = .ok h' ∧
      v.values = .ok [[11]] ∧
      (match get h x .coords 7 with | .ok c => c.values | .error e => .error e)
        = .ok [[10], [20, 30, 40]] ∧
      (match get h' x .coords 7 with | .ok c => c.values | .error e => .error e)
        = .ok [[11], [0, 0, 0]] := by
  refine ⟨exHeap, _, exVar, ⟨[(0, 1)], 9, .along [11, 0, 0, 0], false⟩, rfl, ?_, ?_, ?_⟩
  · decide
  · decide
  · decide

/-- **C93** (violated) a binned variable whose buffer has one event more than the table is accepted
as a coord of the events: it is taken for bin edges, although coords of events "are never edges". -/
theorem C93_wrong_edges {V : Type} (h : Heap V) (x : Binned) (w : Which) (k : Nat) (xs : List V)
    (hx : x.readonly = false) (ht : (h x.ref).readonly = false)
    (hl : xs.length = (h x.ref).data.length + 1) :
    (∃ h', BinsView.set h x w k ⟨x.idx, x.dim, .along xs, false⟩ = .ok h') ∧
      ¬ ∃ h', setData h x ⟨x.idx, x.dim, .along xs, false⟩ = .ok h' := by
  refine ⟨(C93_set_when _ _ _ _ _).2 ⟨hx, ht, rfl, rfl, fun ys e => ?_⟩, ?_⟩
  · cases e; exact .inr hl
  · rintro ⟨h', hs⟩
    simp only [setData, bufferMut, hx, checkAndGetBuf, ht, Bool.false_eq_true, if_false, ne_eq,
      not_true_eq_false] at hs
    rw [if_neg (by omega)] at hs
    cases hs

example : ∃ h', BinsView.set exHeap exVar .coords 4 ⟨exVar.idx, exVar.dim, .along [1, 2, 3, 4, 5],
    false⟩ = .ok h' := (C93_wrong_edges exHeap exVar .coords 4 _ rfl rfl rfl).1

/-! ### Removing -/

private theorem bv_extract_eq {V : Type} (h h' : Heap V) (x : Binned) (w : Which) (k : Nat)
    (c : Column V) (hs : extract h x w k = .ok (h', c)) :
    x.readonly = false ∧ (h x.ref).readonly = false ∧ get h x w k = .ok c ∧
      h' = h.put x.ref ((h x.ref).withDict w (dictErase ((h x.ref).dict w) k)) := by
  unfold extract bufferMut at hs
  cases hr : x.readonly <;> rw [hr] at hs
  · simp only [Bool.false_eq_true, if_false] at hs
    cases ht : (h x.ref).readonly <;> rw [ht] at hs
    · simp only [Bool.false_eq_true, if_false] at hs
      unfold BinsView.get
      cases hd : dictAt ((h x.ref).dict w) k with
      | error e => rw [hd] at hs; cases hs
      | ok it =>
        rw [hd] at hs
        simp only [Except.ok.injEq, Prod.mk.injEq] at hs
        refine ⟨rfl, rfl, ?_, hs.1.symm⟩
        simp only [hs.2]
    · simp at hs
  · simp at hs

/-- **C93** popping an item gives what reading it gives, and takes it away; nothing else changes. -/
theorem C93_pop {V : Type} (h h' : Heap V) (x y : Binned) (w w' : Which) (k j : Nat) (c : Column V)
    (hn : (((h x.ref).dict w).map Prod.fst).Nodup) (hs : extract h x w k = .ok (h', c)) :
    get h x w k = .ok c ∧ erase h x w k = .ok h' ∧ data h' y = data h y ∧
      get h' y w' j = if y.ref = x.ref ∧ w' = w ∧ j = k then .error .notFound else get h y w' j := by
  obtain ⟨h1, h2, h3, rfl⟩ := bv_extract_eq h h' x w k c hs
  refine ⟨h3, by simp only [erase, hs], ?_, ?_⟩
  · by_cases hr : y.ref = x.ref
    · simp only [data, Heap.put, hr, if_true, bv_data_with]
    · simp only [data, Heap.put, hr, if_false]
  · by_cases hr : y.ref = x.ref
    · by_cases hw : w' = w
      · subst hw
        simp only [BinsView.get, Heap.put, hr, if_true, bv_dict_with, dictAt, bv_lookup_erase _ _ _ hn,
          true_and]
        by_cases hj : j = k
        · simp [hj]
        · simp [hj]
      · simp only [BinsView.get, Heap.put, hr, if_true, bv_dict_other _ _ _ _ hw, hw, false_and, and_false,
          if_false]
    · simp only [BinsView.get, Heap.put, hr, if_false, false_and]

example : ∃ h', extract exHeap exVar .coords 7
    = .ok (h', ⟨[(0, 1), (1, 4)], 9, .along [10, 20, 30, 40], false⟩) := ⟨_, rfl⟩

/-- **C93** (violated) removing an item through a slice removes it from the array the slice was taken
of, and from every other variable over the same events. Coords and masks of slices of dense data
cannot be removed. -/
theorem C93_wrong_erase {V : Type} (h h' : Heap V) (x y : Binned) (w : Which) (k a b : Nat)
    (hn : (((h x.ref).dict w).map Prod.fst).Nodup) (hr : y.ref = x.ref)
    (hs : erase h (sliceBins x a b) w k = .ok h') :
    get h' x w k = .error .notFound ∧ get h' y w k = .error .notFound := by
  unfold erase at hs
  cases he : extract h (sliceBins x a b) w k with
  | error e => rw [he] at hs; cases hs
  | ok r =>
    rw [he] at hs
    obtain ⟨h1, c⟩ := r
    simp only [Except.ok.injEq] at hs
    subst hs
    have hx := (C93_pop h h1 (sliceBins x a b) x w w k k c hn he).2.2.2
    have hy := (C93_pop h h1 (sliceBins x a b) y w w k k c hn he).2.2.2
    rw [if_pos ⟨rfl, rfl, rfl⟩] at hx
    rw [if_pos ⟨hr, rfl, rfl⟩] at hy
    exact ⟨hx, hy⟩

example : ∃ h', erase exHeap (sliceBins exVar 0 1) .coords 7 = .ok h' ∧
    get h' exVar .coords 7 = .error .notFound :=
  ⟨_, rfl, (C93_wrong_erase exHeap _ exVar exVar .coords 7 0 1 (by decide) rfl rfl).1⟩

/-- **C93** read-only variables can be read but not modified. -/
theorem C93_readonly {V : Type} (h : Heap V) (x : Binned) (w : Which) (k : Nat) (v : Column V)
    (hx : x.readonly = true) :
    (¬ ∃ h', BinsView.set h x w k v = .ok h') ∧ (¬ ∃ h', erase h x w k = .ok h') ∧
      (¬ ∃ r, extract h x w k = .ok r) ∧ (¬ ∃ h', setData h x v = .ok h') ∧
      ∀ c, get h x w k = .ok c → c.readonly = true := by
  refine ⟨?_, ?_, ?_, ?_, ?_⟩
  · simp [BinsView.set, bufferMut, hx]
  · simp [erase, extract, bufferMut, hx]
  · simp [extract, bufferMut, hx]
  · simp [setData, bufferMut, hx]
  · intro c hc
    unfold BinsView.get at hc
    cases hd : dictAt ((h x.ref).dict w) k with
    | error e => rw [hd] at hc; cases hc
    | ok it => rw [hd] at hc; cases hc; exact hx

example : ¬ ∃ h', erase exHeap { exVar with readonly := true } .coords 7 = .ok h' :=
  (C93_readonly exHeap { exVar with readonly := true } .coords 7
    ⟨[], 9, .scalar 0, false⟩ rfl).2.1

/-! ### Data -/

/-- **C93** reading the data of the events gives, for every bin, the values of its events. -/
theorem C93_data {V : Type} (h : Heap V) (x : Binned) (hw : Within x.idx (h x.ref).data.length) :
    Shows (data h x) x.idx (h x.ref).data := bv_shows x _ hw

example : (data exHeap exVar).values = .ok [[1], [1, 1, 1]] := by decide

/-- **C93** setting the data of the events works exactly for the same bins and the same number of
events; then reading gives it back and no coord or mask changes. -/
theorem C93_set_data {V : Type} (h : Heap V) (x : Binned) (v : Column V) :
    ((∃ h', setData h x v = .ok h') ↔
      x.readonly = false ∧ (h x.ref).readonly = false ∧ v.idx = x.idx ∧ v.dim = x.dim ∧
        ∃ xs, v.buffer = .along xs ∧ xs.length = (h x.ref).data.length) ∧
    ∀ h', setData h x v = .ok h' →
      (data h' x).values = v.values ∧ (∀ y w k, get h' y w k = get h y w k) ∧
        ∀ y, y.ref ≠ x.ref → data h' y = data h y := by
  have hiff : (∃ h', setData h x v = .ok h') ↔
      x.readonly = false ∧ (h x.ref).readonly = false ∧ v.idx = x.idx ∧ v.dim = x.dim ∧
        ∃ xs, v.buffer = .along xs ∧ xs.length = (h x.ref).data.length := by
    unfold setData bufferMut checkAndGetBuf
    cases hr : x.readonly
    · simp only [Bool.false_eq_true, if_false]
      by_cases hi : v.idx = x.idx
      · by_cases hd : v.dim = x.dim
        · simp only [hi, hd, ne_eq, not_true_eq_false, if_false]
          cases ht : (h x.ref).readonly
          · simp only [Bool.false_eq_true, if_false]
            cases hb : v.buffer with
            | scalar a => simp
            | along xs =>
              by_cases hf : xs.length = (h x.ref).data.length <;> simp [hf]
          · simp
        · simp [hi, hd]
      · simp [hi]
    · simp
  refine ⟨hiff, fun h' hs => ?_⟩
  obtain ⟨h1, h2, h3, h4, xs, h5, h6⟩ := hiff.1 ⟨h', hs⟩
  simp only [setData, bufferMut, h1, checkAndGetBuf, h3, h4, h2, h5, h6, Bool.false_eq_true,
    if_false, if_true, ne_eq, not_true_eq_false, Except.ok.injEq] at hs
  subst hs
  refine ⟨?_, fun y w k => ?_, fun y hy => ?_⟩
  · simp only [Column.values, data, make, Heap.put, if_true, h3, h5]
  · by_cases hr : y.ref = x.ref
    · simp only [BinsView.get, Heap.put, hr, if_true]
      cases w <;> rfl
    · simp only [BinsView.get, Heap.put, hr, if_false]
  · simp only [data, Heap.put, hy, if_false]

example : ∃ h', setData exHeap exVar ⟨[(0, 1), (1, 4)], 9, .along [5, 6, 7, 8], false⟩ = .ok h' :=
  (C93_set_data _ _ _).1.2 ⟨rfl, rfl, rfl, rfl, _, rfl, rfl⟩

/-! ### Comparing -/

/-- **C93** (violated) two views compare equal whenever they refer to the same events, even if their
bins differ ... -/
theorem C93_wrong_equal {V : Type} [DecidableEq V] (h : Heap V) (x : Binned) (w : Which)
    (idx : List (Nat × Nat)) (hn : (((h x.ref).dict w).map Prod.fst).Nodup) :
    viewEq h x { x with idx := idx } w = true := by
  exact (bv_dict_eq _ _ hn hn).2 (fun _ => rfl)

example : viewEq exHeap exVar { exVar with idx := [(1, 3)] } .coords = true :=
  C93_wrong_equal exHeap exVar .coords _ (by decide)

/-- **C93** (violated) ... and unequal although all bins have the same contents, if the events are
stored in a different order or the table has events that are in no bin. -/
theorem C93_wrong_unequal :
    ∃ (h : Heap Nat) (x y : Binned),
      (match get h x .coords 7 with | .ok c => c.values | .error e => .error e) = .ok [[10], [20]] ∧
      (match get h y .coords 7 with | .ok c => c.values | .error e => .error e) = .ok [[10], [20]] ∧
      viewEq h x y .coords = false := by
  refine ⟨fun a => if a = 0 then ⟨[1, 1], [(7, .along [10, 20])], [], false⟩
    else ⟨[1, 1], [(7, .along [20, 10])], [], false⟩, ⟨[(0, 1), (1, 2)], 9, 0, false⟩,
    ⟨[(1, 2), (0, 1)], 9, 1, false⟩, ?_, ?_, ?_⟩ <;> decide

/-- **C93** views of the same kind compare equal exactly when the two event tables have the same
items. -/
theorem C93_equal_when {V : Type} [DecidableEq V] (h : Heap V) (x y : Binned) (w : Which)
    (hx : (((h x.ref).dict w).map Prod.fst).Nodup) (hy : (((h y.ref).dict w).map Prod.fst).Nodup) :
    viewEq h x y w = true ↔ ∀ k, ((h x.ref).dict w).lookup k = ((h y.ref).dict w).lookup k := by
  exact bv_dict_eq _ _ hx hy

example : viewEq exHeap exVar exVar .masks = true :=
  (C93_equal_when exHeap exVar exVar .masks (by decide) (by decide)).2 (fun _ => rfl)

/-- A slice of the bins refers to the same events: its `i`-th bin is bin `first + i`. -/
theorem C93_slice_bins (x : Binned) (first last i : Nat) :
    (sliceBins x first last).idx[i]? = (if first + i < last then x.idx[first + i]? else none) ∧ (sliceBins x first last).ref = x.ref ∧
      (sliceBins x first last).readonly = x.readonly := by
  refine ⟨?_, rfl, rfl⟩
  simp only [sliceBins, List.getElem?_take, List.getElem?_drop]
  split_ifs <;> first | rfl | omega

example : (sliceBins exVar 1 2).idx[0]? = some (1, 4) := by
  rw [(C93_slice_bins exVar 1 2 0).1]
  rfl

end Scipp.Props
