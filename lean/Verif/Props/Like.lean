import Verif.Model.Like
import Mathlib.Data.List.Basic
import Mathlib.Data.List.Forall2
import Mathlib.Algebra.BigOperators.Group.List.Basic
/-!
C138: new objects like given ones.
-/
namespace Scipp.Props
open Scipp Scipp.Like

/-- Buffers of data and masks of an object, including variances. -/
def c138Own (o : Obj) : List Nat := o.data.buf :: o.data.vbuf.toList ++ (o.info.elim [] (fun i => i.2.map (fun m => m.2.buf)))

/-- Writing values into buffers, one after the other: buffer, position, value. -/
def c138Write (h : List (List ℚ)) (ws : List (Nat × Nat × ℚ)) : List (List ℚ) := ws.foldl (fun h w => h.set w.1 ((h.getD w.1 []).set w.2.1 w.2.2)) h

/-- Two masks with the same properties and contents. -/
def c138SameMask (h h' : List (List ℚ)) (a b : Nat × Var) : Prop :=
  a.1 = b.1 ∧ a.2.dims = b.2.dims ∧ a.2.unit = b.2.unit ∧ a.2.dtype = b.2.dtype ∧ h'[b.2.buf]? = h[a.2.buf]?

theorem c138_copied_spec (l : List (Nat × Var)) : ∀ (h : List (List ℚ)), (∀ m ∈ l, m.2.buf < h.length) →
    (∃ t, (copied h l).1 = h ++ t) ∧ List.Forall₂ (c138SameMask h (copied h l).1) l (copied h l).2 ∧ (∀ m ∈ (copied h l).2, h.length ≤ m.2.buf) := by
  induction l with
  | nil => intro h _; exact ⟨⟨[], by simp [copied]⟩, List.Forall₂.nil, fun m hm => by simp [copied] at hm⟩
  | cons p l ih =>
    intro h hl
    obtain ⟨k, v⟩ := p
    have hv : v.buf < h.length := hl (k, v) List.mem_cons_self
    have hlen : (h ++ [h.getD v.buf []]).length = h.length + 1 := by simp
    obtain ⟨⟨t, ht⟩, i2, i3⟩ := ih (h ++ [h.getD v.buf []]) (fun m hm => by have := hl m (List.mem_cons_of_mem _ hm); omega)
    have hc : copied h ((k, v) :: l) = ((copied (h ++ [h.getD v.buf []]) l).1, (k, { v with buf := h.length, vbuf := none }) :: (copied (h ++ [h.getD v.buf []]) l).2) := rfl
    rw [hc]
    refine ⟨⟨h.getD v.buf [] :: t, ?_⟩, List.Forall₂.cons ?_ ?_, ?_⟩
    · simp only [ht]
      rw [List.append_assoc, List.singleton_append]
    · refine ⟨rfl, rfl, rfl, rfl, ?_⟩
      simp only [ht]
      rw [List.append_assoc, List.getElem?_append_right (Nat.le_refl _)]
      simp [List.getElem?_eq_getElem hv]
    · refine (List.forall₂_iff_get.2 ⟨i2.length_eq, fun i h1 h2 => ?_⟩)
      obtain ⟨e1, e2, e3, e4, e5⟩ := (List.forall₂_iff_get.1 i2).2 i h1 h2
      refine ⟨e1, e2, e3, e4, ?_⟩
      rw [e5]
      exact List.getElem?_append_left (hl _ (List.mem_cons_of_mem _ (List.get_mem l ⟨i, h1⟩)))
    · intro m hm
      rcases List.mem_cons.1 hm with rfl | hm
      · exact Nat.le_refl _
      · have := i3 m hm
        omega

theorem c138_newVar_spec (h : List (List ℚ)) (v : Var) (value : ℚ) (variance : Option ℚ) :
    (∃ t, (newVar h v value variance).1 = h ++ t) ∧
    (newVar h v value variance).2.dims = v.dims ∧ (newVar h v value variance).2.unit = v.unit ∧ (newVar h v value variance).2.dtype = v.dtype ∧
    (∀ b ∈ (newVar h v value variance).2.buf :: (newVar h v value variance).2.vbuf.toList, h.length ≤ b) ∧
    (newVar h v value variance).1[(newVar h v value variance).2.buf]? = some (List.replicate (volume v.dims) value) ∧
    ((newVar h v value variance).2.vbuf.map (fun b => (newVar h v value variance).1[b]?)) = variance.map (fun x => some (List.replicate (volume v.dims) x)) := by
  cases variance with
  | none =>
    refine ⟨⟨[_], rfl⟩, rfl, rfl, rfl, ?_, ?_, rfl⟩
    · intro b hb
      simp [newVar, alloc] at hb
      omega
    · simp [newVar, alloc]
  | some x =>
    refine ⟨⟨[_, _], by simp only [newVar, alloc]; rw [List.append_assoc]; rfl⟩, rfl, rfl, rfl, ?_, ?_, ?_⟩
    · intro b hb
      simp [newVar, alloc] at hb
      omega
    · simp [newVar, alloc]
    · simp [newVar, alloc]

/-- Masks use existing buffers. -/
def c138Valid (h : List (List ℚ)) (o : Obj) : Prop := ∀ i, o.info = some i → ∀ m ∈ i.2, m.2.buf < h.length

theorem c138_fullLike_heap (h : List (List ℚ)) (o : Obj) (value : ℚ) (variance : Option ℚ) (hv : c138Valid h o) :
    (∃ t, (fullLike h o value variance).1 = h ++ t) ∧ ∀ b ∈ c138Own (fullLike h o value variance).2, h.length ≤ b := by
  obtain ⟨⟨t, ht⟩, _, _, _, n5, _⟩ := c138_newVar_spec h o.data value variance
  unfold fullLike rewrap c138Own
  cases hi : o.info with
  | none =>
    refine ⟨⟨t, ht⟩, fun b hb => ?_⟩
    simp only [Option.elim, List.append_nil] at hb
    exact n5 b hb
  | some i =>
    obtain ⟨coords, masks⟩ := i
    obtain ⟨⟨s, hs⟩, _, c3⟩ := c138_copied_spec masks (newVar h o.data value variance).1 (fun m hm => by
      have := hv _ hi m hm
      rw [ht, List.length_append]
      omega)
    refine ⟨⟨t ++ s, by simp only; rw [hs, ht, List.append_assoc]⟩, fun b hb => ?_⟩
    simp only [Option.elim, List.mem_append, List.mem_map] at hb
    rcases hb with hb | ⟨m, hm, rfl⟩
    · exact n5 b hb
    · have := c3 m hm
      rw [ht, List.length_append] at this
      omega

theorem c138_volume (dims : List (Dim × Nat)) : volume dims = (dims.map (fun d => d.2)).prod := by
  rw [List.prod_eq_foldl, List.foldl_map]
  rfl

/-- **C138** `full_like`: dims, unit and dtype of the input, the given value everywhere, variances as given; coords are shared, masks are copies with the same contents. Missing: attributes, the name (which is dropped), variances of masks, and dtypes for which no such variable can be made. -/
theorem C138_full_partial (h : List (List ℚ)) (o : Obj) (value : ℚ) (variance : Option ℚ) (hv : c138Valid h o) (h' : List (List ℚ)) (r : Obj) (hr : fullLike h o value variance = (h', r)) :
    r.data.dims = o.data.dims ∧ r.data.unit = o.data.unit ∧ r.data.dtype = o.data.dtype ∧
    h'[r.data.buf]? = some (List.replicate (o.data.dims.map (fun d => d.2)).prod value) ∧
    (r.data.vbuf.map (fun b => h'[b]?)) = variance.map (fun x => some (List.replicate (o.data.dims.map (fun d => d.2)).prod x)) ∧
    (o.info = none → r.info = none) ∧
    ∀ coords masks, o.info = some (coords, masks) → ∃ masks', r.info = some (coords, masks') ∧ List.Forall₂ (c138SameMask h h') masks masks' := by
  rw [← c138_volume]
  obtain ⟨⟨t, ht⟩, n2, n3, n4, n5, n6, n7⟩ := c138_newVar_spec h o.data value variance
  unfold fullLike rewrap at hr
  cases hi : o.info with
  | none =>
    rw [hi] at hr
    simp only [Prod.mk.injEq] at hr
    obtain ⟨rfl, rfl⟩ := hr
    exact ⟨n2, n3, n4, n6, n7, fun _ => rfl, fun c m he => (by cases he)⟩
  | some i =>
    obtain ⟨coords, masks⟩ := i
    rw [hi] at hr
    simp only [Prod.mk.injEq] at hr
    obtain ⟨hh, rfl⟩ := hr
    obtain ⟨⟨s, hs⟩, c2, c3⟩ := c138_copied_spec masks (newVar h o.data value variance).1 (fun m hm => by
      have := hv _ hi m hm
      rw [ht, List.length_append]
      omega)
    have keep : ∀ (b : Nat) (x : List ℚ), (newVar h o.data value variance).1[b]? = some x → h'[b]? = some x := by
      intro b x hb
      rw [← hh, hs]
      have hlt : b < (newVar h o.data value variance).1.length := (List.getElem?_eq_some_iff.1 hb).1
      rw [List.getElem?_append_left hlt]
      exact hb
    refine ⟨n2, n3, n4, keep _ _ n6, ?_, fun he => (by cases he), fun c m he => ?_⟩
    · cases hvb : (newVar h o.data value variance).2.vbuf with
      | none =>
        rw [hvb] at n7
        exact n7
      | some b =>
        rw [hvb] at n7
        cases variance with
        | none => cases n7
        | some x =>
          simp only [Option.map_some, Option.some.injEq] at n7 ⊢
          exact keep b _ n7
    · cases he
      refine ⟨_, rfl, List.forall₂_iff_get.2 ⟨c2.length_eq, fun i h1 h2 => ?_⟩⟩
      obtain ⟨e1, e2, e3, e4, e5⟩ := (List.forall₂_iff_get.1 c2).2 i h1 h2
      refine ⟨e1, e2, e3, e4, ?_⟩
      rw [← hh, e5, ht]
      exact List.getElem?_append_left (hv _ hi _ (List.get_mem masks ⟨i, h1⟩))

/-- **C138** `zeros_like` and `ones_like` are `full_like` with this value, and with variances exactly if the input has some. -/
theorem C138_const (h : List (List ℚ)) (o : Obj) (value : ℚ) :
    (o.data.vbuf = none → constLike h o value = fullLike h o value none) ∧ (o.data.vbuf ≠ none → constLike h o value = fullLike h o value (some value)) := by
  unfold constLike
  cases o.data.vbuf with
  | none => exact ⟨fun _ => rfl, fun h => absurd rfl h⟩
  | some b => exact ⟨fun h => (by cases h), fun _ => rfl⟩

theorem c138_write_keep (ws : List (Nat × Nat × ℚ)) (n : Nat) : ∀ (h : List (List ℚ)), (∀ w ∈ ws, n ≤ w.1) → ∀ b, b < n → (c138Write h ws)[b]? = h[b]? := by
  unfold c138Write
  induction ws with
  | nil => intro h _ b _; rfl
  | cons w ws ih =>
    intro h hw b hb
    rw [List.foldl_cons, ih _ (fun x hx => hw x (List.mem_cons_of_mem _ hx)) b hb]
    have := hw w List.mem_cons_self
    exact List.getElem?_set_ne (by omega)

/-- **C138** Whatever is written into data or masks of the result, and creating it, changes no existing buffer, so the input and all other objects are as before. -/
theorem C138_isolated (h : List (List ℚ)) (o : Obj) (value : ℚ) (variance : Option ℚ) (hv : c138Valid h o) (ws : List (Nat × Nat × ℚ)) (hw : ∀ w ∈ ws, w.1 ∈ c138Own (fullLike h o value variance).2) (b : Nat) (hb : b < h.length) :
    (c138Write (fullLike h o value variance).1 ws)[b]? = h[b]? := by
  obtain ⟨⟨t, ht⟩, hown⟩ := c138_fullLike_heap h o value variance hv
  rw [c138_write_keep ws h.length _ (fun w hx => hown _ (hw w hx)) b hb, ht]
  exact List.getElem?_append_left hb

/-! Cases: a data array with a coord and a mask. -/

def c138Heap : List (List ℚ) := [[1, 2], [1, 1], [5, 6], [0, 1]]

def c138Obj : Obj := ⟨⟨[(1, 2)], 7, 8, 0, some 1⟩, some ([(1, ⟨[(1, 2)], 9, 8, 2, none⟩)], [(4, ⟨[(1, 2)], 0, 3, 3, none⟩)])⟩

theorem c138_valid : c138Valid c138Heap c138Obj := by
  intro i hi m hm
  cases hi
  simp at hm
  subst hm
  decide

theorem c138_zeros : constLike c138Heap c138Obj 0 = (c138Heap ++ [[0, 0], [0, 0], [0, 1]], ⟨⟨[(1, 2)], 7, 8, 4, some 5⟩, some ([(1, ⟨[(1, 2)], 9, 8, 2, none⟩)], [(4, ⟨[(1, 2)], 0, 3, 6, none⟩)])⟩) := by decide +kernel

example := C138_full_partial c138Heap c138Obj 0 (some 0) c138_valid _ _ rfl

example := C138_const c138Heap c138Obj 1

example := C138_isolated c138Heap c138Obj 0 (some 0) c138_valid [(4, 0, 3), (6, 1, 0)] (by decide +kernel) 3 (by decide)

end Scipp.Props
