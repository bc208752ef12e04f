import Verif.Spec.DictIter
import Mathlib.Tactic.SplitIfs
import Mathlib.Tactic.ByContra
/-!
C103: iterating over a dict that is being modified.
-/
namespace Scipp.Props
open Scipp DictIter
variable {K V : Type} [DecidableEq K]

private theorem findIndex_le (k : K) (l : List K) : Dict.findIndex k l ≤ l.length := by
  induction l with
  | nil => exact Nat.le_refl _
  | cons a l ih => unfold Dict.findIndex; split_ifs <;> simp; exact ih

private theorem findIndex_lt_of_mem {k : K} {l : List K} (h : k ∈ l) : Dict.findIndex k l < l.length := by
  induction l with
  | nil => cases h
  | cons a l ih =>
    unfold Dict.findIndex
    split_ifs with ha
    · simp
    · rcases List.mem_cons.mp h with rfl | h
      · exact absurd rfl ha
      · simpa using ih h

/-- **C103** (contents): the operations change the contents as those of the dict of C16 do. -/
theorem C103_contents (m : Mem K V) (k : K) (v : V) (ka va : Nat) (hg : m.Good) :
    DictOp.apply ⟨m.keys.elems, m.values.elems⟩ (.insertOrAssign k v) =
      .ok ⟨((MOp.insertOrAssign k v ka va).apply m).keys.elems, ((MOp.insertOrAssign k v ka va).apply m).values.elems⟩ ∧
    DictOp.apply (V := V) ⟨m.keys.elems, m.values.elems⟩ (.erase k) =
      .ok ⟨((MOp.erase k).apply m).keys.elems, ((MOp.erase k).apply m).values.elems⟩ := by
  obtain ⟨h1, h2, h3⟩ := hg
  constructor
  · simp only [DictOp.apply, Dict.insertOrAssign, MOp.apply]
    split_ifs with h h'
    · have : ∀ {α : Type} (w : Vec α) x a, (w.push x a).elems = w.elems ++ [x] := by
        intro α w x a; unfold Vec.push; split_ifs <;> rfl
      simp only [this]
    · rfl
    · exact absurd (h1 ▸ Nat.lt_of_le_of_ne (findIndex_le k m.keys.elems) h) h'
  · simp only [DictOp.apply, Dict.erase, Dict.extract, Dict.expectFindIndex, MOp.apply]
    split_ifs with h
    · rfl
    · have hlt : Dict.findIndex k m.keys.elems < m.values.elems.length := by
        rw [← h1]; exact Nat.lt_of_le_of_ne (findIndex_le k m.keys.elems) h
      simp only [bind, Except.bind, List.getElem?_eq_getElem hlt]
      rfl

example : ((MOp.erase 5).apply (⟨⟨100, 2, [4, 5]⟩, ⟨200, 2, [1, 2]⟩⟩ : Mem Nat Nat)).items = [(4, 1)] := rfl

/-- The invariant: the vectors are in step, and the keys are where they were at the beginning only if the values are, too. -/
private def Inv (b vb : Nat) (m : Mem K V) : Prop := m.Good ∧ (m.keys.base = b → m.values.base = vb)

private theorem apply_inv {b vb : Nat} {m : Mem K V} {op : MOp K V} (h : Inv b vb m) (ha : op.avoids b) : Inv b vb (op.apply m) := by
  obtain ⟨⟨h1, h2, h3⟩, h4⟩ := h
  cases op with
  | insertOrAssign k v ka va =>
    simp only [MOp.apply]
    split_ifs with hk
    · by_cases hc : m.keys.elems.length < m.keys.cap
      · have hc' : m.values.elems.length < m.values.cap := by rw [← h1, ← h2]; exact hc
        simp only [Vec.push, if_pos hc, if_pos hc', Inv, Mem.Good, List.length_append, List.length_cons, List.length_nil]
        exact ⟨⟨by omega, h2, by omega⟩, h4⟩
      · have hc' : ¬ m.values.elems.length < m.values.cap := by rw [← h1, ← h2]; exact hc
        simp only [Vec.push, if_neg hc, if_neg hc', Inv, Mem.Good, List.length_append, List.length_cons, List.length_nil]
        exact ⟨⟨by omega, by rw [h2], by omega⟩, fun h => absurd h ha⟩
    · exact ⟨⟨by simpa using h1, h2, h3⟩, h4⟩
  | erase k =>
    simp only [MOp.apply]
    split_ifs with hk
    · exact ⟨⟨h1, h2, h3⟩, h4⟩
    · have hlt : Dict.findIndex k m.keys.elems < m.keys.elems.length := Nat.lt_of_le_of_ne (findIndex_le k _) hk
      refine ⟨⟨?_, h2, ?_⟩, h4⟩
      · simp only [List.length_eraseIdx, if_pos hlt, if_pos (h1 ▸ hlt : _ < m.values.elems.length)]; omega
      · simp only [List.length_eraseIdx, if_pos hlt]; omega
  | clear => exact ⟨⟨rfl, h2, Nat.zero_le _⟩, h4⟩

private theorem applyAll_inv {b vb : Nat} {ops : List (MOp K V)} : ∀ {m : Mem K V}, Inv b vb m → (∀ op ∈ ops, op.avoids b) → Inv b vb (applyAll m ops) := by
  induction ops with
  | nil => intro m h _; exact h
  | cons op ops ih =>
    intro m h ha
    exact ih (m := op.apply m) (apply_inv h (ha op List.mem_cons_self)) fun o ho => ha o (List.mem_cons_of_mem _ ho)

private theorem check_ok {it : Iter} {m : Mem K V} (h : m.keys.base = it.base ∧ m.keys.elems.length = it.size) : it.check m = .ok () := by
  unfold Iter.check; rw [if_neg]; rintro (h' | h')
  · exact h' h.1
  · exact h' h.2

private theorem check_error {it : Iter} {m : Mem K V} (h : ¬ (m.keys.base = it.base ∧ m.keys.elems.length = it.size)) : it.check m = .error .runtime := by
  unfold Iter.check; rw [if_pos]
  by_cases h1 : m.keys.base = it.base
  · exact .inr fun h2 => h ⟨h1, h2⟩
  · exact .inl h1

private theorem read_at {α : Type} (v : Vec α) (i : Nat) (h : i < v.elems.length) : v.read (v.base + i) = .ok v.elems[i] := by
  unfold Vec.read
  rw [if_pos (Nat.le_add_right _ _), Nat.add_sub_cancel_left, List.getElem?_eq_getElem h]

/-- The dict is as the iterators expect it. -/
private def Stable (b n : Nat) (m : Mem K V) : Prop := m.keys.base = b ∧ m.size = n

private theorem stateAt_zero (m : Mem K V) (bodies : List (List (MOp K V))) : stateAt m bodies 0 = m := rfl
private theorem stateAt_succ (m : Mem K V) (body : List (MOp K V)) (rest : List (List (MOp K V))) (i : Nat) :
    stateAt m (body :: rest) (i + 1) = stateAt (applyAll m body) rest i := by
  simp [stateAt, applyAll, List.foldl_append]

/-- The loop from position `i`. -/
private theorem loop_spec {b vb n : Nat} {bodies : List (List (MOp K V))} : ∀ {m : Mem K V} {i : Nat} {fin : Iter},
    Inv b vb m → Avoids b bodies → Stable b n m → i ≤ n → fin.key = b + n → ∀ r, loop m ⟨b + i, vb + i, b, n⟩ fin bodies = r →
    (∀ j (h : j < r.1.length), (stateAt m bodies j).items[i + j]? = some r.1[j] ∧ Stable b n (stateAt m bodies j)) ∧
    r.1.length ≤ bodies.length ∧
    (r.2 = .ok .finished → r.1.length = n - i ∧ Stable b n (stateAt m bodies (n - i))) ∧
    (r.2 = .ok .left → r.1.length = bodies.length ∧ bodies.length < n - i ∧ Stable b n (stateAt m bodies bodies.length)) ∧
    (∀ e, r.2 = .error e → e = .runtime ∧ 0 < r.1.length ∧ ¬ Stable b n (stateAt m bodies r.1.length)) := by
  induction bodies with
  | nil =>
    intro m i fin hi ha hs hle hf r hr
    have hc : Iter.check ⟨b + i, vb + i, b, n⟩ m = .ok () := check_ok hs
    simp only [loop, Iter.eq, hc, bind, Except.bind, pure, Except.pure, hf] at hr
    by_cases h : i = n
    · subst h
      simp only [decide_true] at hr
      subst hr
      refine ⟨fun j h => absurd h (Nat.not_lt_zero _), Nat.le_refl _, fun _ => ⟨by simp, by simpa [stateAt_zero] using hs⟩, (fun h => by cases h), fun e h => by cases h⟩
    · rw [decide_eq_false (by omega)] at hr
      subst hr
      refine ⟨fun j h => absurd h (Nat.not_lt_zero _), Nat.le_refl _, (fun h => by cases h), fun _ => ⟨rfl, by simp; omega, hs⟩, fun e h => by cases h⟩
  | cons body rest ih =>
    intro m i fin hi ha hs hle hf r hr
    have hc : Iter.check ⟨b + i, vb + i, b, n⟩ m = .ok () := check_ok hs
    simp only [loop, Iter.eq, hc, bind, Except.bind, pure, Except.pure, hf] at hr
    by_cases h : i = n
    · subst h
      simp only [decide_true] at hr
      subst hr
      refine ⟨fun j h => absurd h (Nat.not_lt_zero _), Nat.zero_le _, fun _ => ⟨by simp, by simpa [stateAt_zero] using hs⟩, (fun h => by cases h), fun e h => by cases h⟩
    · rw [decide_eq_false (by omega)] at hr
      have hlt : i < n := by omega
      have hk : i < m.keys.elems.length := by have := hs.2; unfold Mem.size at this; omega
      have hv : i < m.values.elems.length := by rw [← hi.1.1]; exact hk
      have hb : m.keys.base = b := hs.1
      have hvb : m.values.base = vb := hi.2 hb
      have hd : Iter.deref ⟨b + i, vb + i, b, n⟩ m = .ok (m.keys.elems[i], m.values.elems[i]) := by
        simp only [Iter.deref, hc, bind, Except.bind, pure, Except.pure]
        rw [← hb, ← hvb, read_at _ _ hk]; dsimp only
        rw [read_at _ _ hv]
      have hitem : m.items[i]? = some (m.keys.elems[i], m.values.elems[i]) := by
        unfold Mem.items; rw [List.getElem?_eq_getElem (by simp; omega)]; simp
      rw [hd] at hr
      dsimp only at hr
      have hinv' : Inv b vb (applyAll m body) := applyAll_inv hi (ha body List.mem_cons_self)
      by_cases hst : Stable b n (applyAll m body)
      · have hn : Iter.next ⟨b + i, vb + i, b, n⟩ (applyAll m body) = .ok ⟨b + (i + 1), vb + (i + 1), b, n⟩ := by
          simp only [Iter.next, check_ok (it := ⟨b + i, vb + i, b, n⟩) hst, bind, Except.bind, pure, Except.pure]; rfl
        rw [hn] at hr
        dsimp only at hr
        subst hr
        obtain ⟨i1, i2, i3, i4, i5⟩ := ih (m := applyAll m body) (i := i + 1) (fin := fin) hinv' (fun x hx => ha x (List.mem_cons_of_mem _ hx)) hst (by omega) hf _ rfl
        refine ⟨?_, by simpa using i2, ?_, ?_, ?_⟩
        · intro j hj
          cases j with
          | zero => exact ⟨hitem, hs⟩
          | succ j =>
            have := i1 j (by simpa using hj)
            rw [stateAt_succ, show i + (j + 1) = i + 1 + j by omega]
            exact this
        · intro hr
          obtain ⟨j1, j2⟩ := i3 hr
          refine ⟨by simp only [List.length_cons]; omega, ?_⟩
          rw [show n - i = (n - (i + 1)) + 1 by omega, stateAt_succ]; exact j2
        · intro hr
          obtain ⟨j1, j2, j3⟩ := i4 hr
          refine ⟨by simp only [List.length_cons]; omega, by simp only [List.length_cons]; omega, ?_⟩
          rw [List.length_cons, stateAt_succ]; exact j3
        · intro e hr
          obtain ⟨j1, j2, j3⟩ := i5 e hr
          refine ⟨j1, by simp, ?_⟩
          rw [List.length_cons, stateAt_succ]; exact j3
      · have hn : Iter.next ⟨b + i, vb + i, b, n⟩ (applyAll m body) = .error .runtime := by
          simp only [Iter.next, check_error (it := ⟨b + i, vb + i, b, n⟩) hst, bind, Except.bind]
        rw [hn] at hr
        subst hr
        refine ⟨?_, by simp, (fun h => by cases h), (fun h => by cases h), ?_⟩
        · intro j hj
          have : j = 0 := by simpa using hj
          subst this
          exact ⟨hitem, hs⟩
        · intro e he
          cases he
          refine ⟨rfl, by simp, ?_⟩
          rw [List.length_singleton, stateAt_succ, stateAt_zero]; exact hst

private theorem iterate_spec (m : Mem K V) (bodies : List (List (MOp K V))) (hg : m.Good) (ha : Avoids m.keys.base bodies) :
    let r := iterate m bodies
    (∀ j (h : j < r.1.length), (stateAt m bodies j).items[j]? = some r.1[j] ∧ Stable m.keys.base m.size (stateAt m bodies j)) ∧
    r.1.length ≤ bodies.length ∧
    (r.2 = .ok .finished → r.1.length = m.size ∧ Stable m.keys.base m.size (stateAt m bodies m.size)) ∧
    (r.2 = .ok .left → r.1.length = bodies.length ∧ bodies.length < m.size ∧ Stable m.keys.base m.size (stateAt m bodies bodies.length)) ∧
    (∀ e, r.2 = .error e → e = .runtime ∧ 0 < r.1.length ∧ ¬ Stable m.keys.base m.size (stateAt m bodies r.1.length)) := by
  have := loop_spec (b := m.keys.base) (vb := m.values.base) (n := m.size) (bodies := bodies) (m := m) (i := 0) (fin := end' m)
    ⟨hg, fun _ => rfl⟩ ha ⟨rfl, rfl⟩ (Nat.zero_le _) rfl _ rfl
  simpa [iterate, begin', Mem.size] using this

/-- **C103** (safety; the part that holds): whatever the body of the loop does to the dict, if memory is not reused for the keys during the loop, there is no
undefined behaviour: every item visited is the item that is at this position of the dict at this time, a loop that runs to its end visits as many items as
there were at the beginning, and the only error is that of a modified dict. -/
theorem C103_visits_partial (m : Mem K V) (bodies : List (List (MOp K V))) (hg : m.Good) (ha : Avoids m.keys.base bodies) :
    (∀ j (h : j < (iterate m bodies).1.length), (stateAt m bodies j).items[j]? = some (iterate m bodies).1[j]) ∧
    ((iterate m bodies).2 = .ok .finished → (iterate m bodies).1.length = m.size) ∧
    (∀ e, (iterate m bodies).2 = .error e → e = .runtime) :=
  let ⟨h1, _, h3, _, h5⟩ := iterate_spec m bodies hg ha
  ⟨fun j h => (h1 j h).1, fun h => (h3 h).1, fun e h => (h5 e h).1⟩

example : (iterate (⟨⟨100, 2, [4, 5]⟩, ⟨200, 2, [1, 2]⟩⟩ : Mem Nat Nat) [[.insertOrAssign 5 9 0 0], []]) = ([(4, 1), (5, 9)], .ok .finished) := rfl

/-- **C103** (changes of size are noticed): if after the body for item `i` the number of items is not that of the beginning, the loop is ended by an error at
once: no further item is visited. -/
theorem C103_size_change_noticed (m : Mem K V) (bodies : List (List (MOp K V))) (hg : m.Good) (ha : Avoids m.keys.base bodies) (i : Nat)
    (hi : i < (iterate m bodies).1.length) (hs : (stateAt m bodies (i + 1)).size ≠ m.size) :
    (iterate m bodies).2 = .error .runtime ∧ (iterate m bodies).1.length = i + 1 := by
  obtain ⟨h1, h2, h3, h4, h5⟩ := iterate_spec m bodies hg ha
  have hlen : (iterate m bodies).1.length = i + 1 := by
    by_contra hne
    exact hs (h1 (i + 1) (by omega)).2.2
  refine ⟨?_, hlen⟩
  cases hr : (iterate m bodies).2 with
  | error e => rw [(h5 e hr).1]
  | ok r =>
    cases r with
    | finished =>
      obtain ⟨g1, g2⟩ := h3 hr
      rw [← g1, hlen] at g2
      exact absurd (g2.2.trans (hlen.symm.trans g1)) hs
    | left =>
      obtain ⟨g1, _, g3⟩ := h4 hr
      rw [← g1, hlen] at g3
      exact absurd g3.2 hs

example : (iterate (⟨⟨100, 2, [4, 5]⟩, ⟨200, 2, [1, 2]⟩⟩ : Mem Nat Nat) [[.erase 4], []]) = ([(4, 1)], .error .runtime) := rfl

private theorem assign_keys {ks : List K} {op : MOp K V} {m : Mem K V} (h : op.assigns ks) (hm : m.keys.elems = ks) :
    (op.apply m).keys = m.keys := by
  cases op with
  | insertOrAssign k v ka va =>
    have : k ∈ m.keys.elems := by rw [hm]; exact h
    simp only [MOp.apply, if_neg (Nat.ne_of_lt (findIndex_lt_of_mem this))]
  | erase k => exact h.elim
  | clear => exact h.elim

private theorem assignAll_keys {ops : List (MOp K V)} : ∀ {m : Mem K V}, (∀ op ∈ ops, op.assigns m.keys.elems) → (applyAll m ops).keys = m.keys := by
  induction ops with
  | nil => intro m _; rfl
  | cons op ops ih =>
    intro m h
    have h1 := assign_keys (m := m) (h op List.mem_cons_self) rfl
    have := ih (m := op.apply m) fun o ho => by rw [h1]; exact h o (List.mem_cons_of_mem _ ho)
    exact this.trans h1

/-- **C103** (values may be assigned): if the body only assigns values to keys that exist, the loop visits every key once, in order, with the value it has at
that time. -/
theorem C103_assignments (m : Mem K V) (bodies : List (List (MOp K V))) (hg : m.Good)
    (ha : ∀ body ∈ bodies, ∀ op ∈ body, op.assigns m.keys.elems) (hl : m.size ≤ bodies.length)
    (haddr : Avoids m.keys.base bodies) :
    (iterate m bodies).2 = .ok .finished ∧ (iterate m bodies).1.map Prod.fst = m.keys.elems ∧
    ∀ j (h : j < (iterate m bodies).1.length), (stateAt m bodies j).items[j]? = some (iterate m bodies).1[j] := by
  obtain ⟨h1, h2, h3, h4, h5⟩ := iterate_spec m bodies hg haddr
  have hk : ∀ j, (stateAt m bodies j).keys = m.keys := by
    intro j
    apply assignAll_keys
    intro op hop
    obtain ⟨body, hb, ho⟩ := List.mem_flatten.mp hop
    exact ha body (List.mem_of_mem_take hb) op ho
  have hfin : (iterate m bodies).2 = .ok .finished := by
    cases hr : (iterate m bodies).2 with
    | error e =>
      exact absurd (show Stable m.keys.base m.size _ from ⟨by rw [hk], by unfold Mem.size; rw [hk]⟩) (h5 e hr).2.2
    | ok r =>
      cases r with
      | finished => rfl
      | left => exact absurd (h4 hr).2.1 (by omega)
  refine ⟨hfin, ?_, fun j h => (h1 j h).1⟩
  have hlen := (h3 hfin).1
  apply List.ext_getElem
  · simpa [Mem.size] using hlen
  · intro j hj hj'
    have hj1 : j < (iterate m bodies).1.length := by simpa using hj
    have := (h1 j hj1).1
    unfold Mem.items at this
    rw [List.getElem?_zip_eq_some] at this
    rw [hk, List.getElem?_eq_getElem hj'] at this
    simpa using (Option.some.inj this.1).symm

example : (iterate (⟨⟨100, 2, [4, 5]⟩, ⟨200, 2, [1, 2]⟩⟩ : Mem Nat Nat) [[.insertOrAssign 5 9 0 0, .insertOrAssign 4 7 0 0], []]).1.map Prod.fst = [4, 5] :=
  (C103_assignments _ _ (by unfold Mem.Good; decide) (by simp [MOp.assigns]) (by decide) (by simp [Avoids, MOp.avoids])).2.1

/-- **C103 is violated** (exchanging items): removing an item and inserting another one leaves the number of items and the memory as they are, which is not noticed: the
item after the removed one is skipped, and the loop ends without error. -/
theorem C103_wrong_exchange :
    iterate (⟨⟨100, 4, [1, 2, 3]⟩, ⟨200, 4, [10, 20, 30]⟩⟩ : Mem Nat Nat) [[.erase 1, .insertOrAssign 4 40 300 400], [], []] =
      ([(1, 10), (3, 30), (4, 40)], .ok .finished) := rfl

/-- **C103 is violated** (reused memory): if enough items are inserted and removed again, and the allocator then returns the old address for the keys but not for
the values, the check passes and a value is read from memory that is no longer in use. -/
theorem C103_wrong_reused_memory :
    ∃ (m : Mem Nat Nat) (body : List (MOp Nat Nat)), m.Good ∧ (∀ k v ka va, MOp.insertOrAssign k v ka va ∈ body → ka ≠ 0 ∧ va ≠ 0) ∧
      (iterate m [body, []]).2 = .error .ub ∧ (applyAll m body).items = m.items :=
  ⟨⟨⟨100, 2, [1, 2]⟩, ⟨200, 2, [10, 20]⟩⟩,
    [.insertOrAssign 3 30 300 400, .insertOrAssign 4 40 1 1, .insertOrAssign 5 50 100 500, .erase 3, .erase 4, .erase 5],
    by unfold Mem.Good; decide, by simp; omega, rfl, rfl⟩

end Scipp.Props
