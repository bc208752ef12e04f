import Verif.Model.Nested
import Mathlib.Logic.Relation
import Mathlib.Order.WellFounded
import Mathlib.Data.Fintype.Card
import Mathlib.Data.Finite.Prod
/-
**C75**: no reference cycles of variables.
-/
namespace Scipp.Props
open Nested Relation

/-- Array `a` keeps array `b` alive: one of its slots holds a handle to it. -/
def Owns (h : Heap) (a b : Nat) : Prop := ∃ i x, slotOf h a i = some x ∧ x.obj = b

/-- No array keeps itself alive. -/
def NoCycle (h : Heap) : Prop := ∀ a, ¬ TransGen (Owns h) a a

/-- The handle is to an existing array and refers to all of its elements. -/
def Whole (h : Heap) (x : Handle) : Prop := ∃ slots, h[x.obj]? = some slots ∧ ∀ i < slots.length, i ∈ x.elems

/-- All handles are whole. -/
def AllWhole (s : State) : Prop := (∀ n x, s.vars n = some x → Whole s.heap x) ∧ ∀ a i x, slotOf s.heap a i = some x → Whole s.heap x

private theorem slot_some {h : Heap} {a i : Nat} {x : Handle} (hs : slotOf h a i = some x) :
    ∃ slots, h[a]? = some slots ∧ i < slots.length := by
  unfold slotOf at hs
  cases ha : h[a]? with
  | none => rw [ha] at hs; simp at hs
  | some slots =>
    rw [ha] at hs
    refine ⟨slots, rfl, ?_⟩
    by_contra hc
    simp [List.getElem?_eq_none (not_lt.1 hc)] at hs

private theorem checkElems_error {h : Heap} {lhs : Loc} {fuel obj : Nat} : ∀ {l : List Nat} {i : Nat}, i ∈ l →
    (lhs = .slot obj i ∨ check h lhs fuel (slotOf h obj i) ≠ .ok ()) → checkElems h lhs (check h lhs fuel) obj l ≠ .ok ()
  | [], i, hi, _ => by simp at hi
  | j :: l, i, hi, hc => by
    unfold checkElems
    split
    · simp
    · rename_i hne
      split
      · simp
      · rename_i hok
        rcases List.mem_cons.1 hi with rfl | hi
        · rcases hc with hc | hc
          · exact absurd hc hne
          · exact absurd hok hc
        · exact checkElems_error hi hc

/-- If the array of the right-hand side reaches the array of the left-hand side by handles that are whole, the check does not pass. -/
private theorem check_finds {s : State} (hw : ∀ a i x, slotOf s.heap a i = some x → Whole s.heap x) {obj i : Nat}
    {slots : List (Option Handle)} (ho : s.heap[obj]? = some slots) (hi : i < slots.length) {c : Nat}
    (hr : ReflTransGen (Owns s.heap) c obj) : ∀ {x : Handle}, x.obj = c → Whole s.heap x → ∀ fuel, check s.heap (.slot obj i) fuel (some x) ≠ .ok () := by
  induction hr using ReflTransGen.head_induction_on with
  | refl =>
    intro x hx hwx fuel
    cases fuel with
    | zero => simp [check]
    | succ fuel =>
      obtain ⟨sl, h1, h2⟩ := hwx
      rw [hx, ho] at h1
      cases h1
      unfold check
      exact checkElems_error (h2 i hi) (.inl (by rw [hx]))
  | head hac _ ih =>
    intro x hx hwx fuel
    cases fuel with
    | zero => simp [check]
    | succ fuel =>
      obtain ⟨j, y, hy, hyc⟩ := hac
      obtain ⟨sl, h1, h2⟩ := hwx
      obtain ⟨sl', h3, h4⟩ := slot_some hy
      rw [hx, h3] at h1
      cases h1
      unfold check
      refine checkElems_error (h2 j h4) (.inr ?_)
      rw [hx, hy]
      exact ih hyc (hw _ _ _ hy) fuel

private theorem slotOf_set {h : Heap} {obj i a k : Nat} {x : Option Handle} {y : Handle}
    (hy : slotOf (h.set obj ((h.getD obj []).set i x)) a k = some y) : slotOf h a k = some y ∨ a = obj ∧ k = i ∧ x = some y := by
  unfold slotOf at hy ⊢
  rw [List.getElem?_set] at hy
  split at hy
  · rename_i hao
    subst hao
    split at hy
    · rename_i hlt
      simp only [Option.bind_some] at hy
      rw [List.getElem?_set] at hy
      have hg : h[obj]? = some (h.getD obj []) := by
        rw [List.getElem?_eq_getElem hlt]
        simp [List.getD, List.getElem?_eq_getElem hlt]
      split at hy
      · rename_i hik
        subst hik
        split at hy
        · right
          refine ⟨rfl, rfl, ?_⟩
          simpa using hy
        · simp at hy
      · left
        rw [hg]
        exact hy
    · simp at hy
  · left; exact hy

private theorem noCycle_add {α : Type} {r r' : α → α → Prop} {b : α} {S : α → Prop} (hr : ∀ x y, r' x y → r x y ∨ x = b ∧ S y)
    (hn : ∀ o, S o → ¬ ReflTransGen r o b) (h : ∀ a, ¬ TransGen r a a) (a : α) : ¬ TransGen r' a a := by
  have key : ∀ {x y}, TransGen r' x y → TransGen r x y ∨ ReflTransGen r x b ∧ ∃ o, S o ∧ ReflTransGen r o y := by
    intro x y hxy
    induction hxy with
    | single h1 =>
      rcases hr _ _ h1 with h1 | ⟨rfl, hS⟩
      · exact .inl (.single h1)
      · exact .inr ⟨.refl, _, hS, .refl⟩
    | tail _ h1 ih =>
      rcases hr _ _ h1 with h1 | ⟨rfl, hS⟩
      · rcases ih with ih | ⟨h2, o, hS, h3⟩
        · exact .inl (ih.tail h1)
        · exact .inr ⟨h2, o, hS, h3.tail h1⟩
      · rcases ih with ih | ⟨_, o, hS', h3⟩
        · exact .inr ⟨ih.to_reflTransGen, _, hS, .refl⟩
        · exact absurd h3 (hn o hS')
  intro hc
  rcases key hc with h1 | ⟨h1, o, hS, h2⟩
  · exact h a h1
  · exact hn o hS (h2.trans h1)

private theorem getElem?_put {h : Heap} {obj i a : Nat} {x : Option Handle} {slots : List (Option Handle)} (ha : h[a]? = some slots) :
    ∃ slots', (h.set obj ((h.getD obj []).set i x))[a]? = some slots' ∧ slots'.length = slots.length := by
  rw [List.getElem?_set]
  split
  · rename_i hao
    subst hao
    have hlt : obj < h.length := by
      by_contra hc
      rw [List.getElem?_eq_none (not_lt.1 hc)] at ha; cases ha
    rw [if_pos hlt]
    refine ⟨_, rfl, ?_⟩
    rw [List.length_set]
    simp [List.getD, ha]
  · exact ⟨slots, ha, rfl⟩

private theorem whole_put {s : State} {lhs : Loc} {x : Option Handle} {y : Handle} (hy : Whole s.heap y) : Whole (s.put x lhs).heap y := by
  cases lhs with
  | named n => exact hy
  | slot obj i =>
    obtain ⟨sl, h1, h2⟩ := hy
    obtain ⟨sl', h3, h4⟩ := getElem?_put (obj := obj) (i := i) (x := x) h1
    exact ⟨sl', h3, fun k hk => h2 k (h4 ▸ hk)⟩

/-- **C75** (one assignment): if all handles are whole and there is no cycle, an assignment that is accepted, to a variable or to any element of any array, leaves no cycle. -/
theorem C75_assign_partial (fuel : Nat) (s s' : State) (lhs : Loc) (rhs : Option Handle) (hc : NoCycle s.heap) (hw : AllWhole s)
    (hr : ∀ x, rhs = some x → Whole s.heap x) (h : Nested.assign fuel s lhs rhs = .ok s') : NoCycle s'.heap ∧ AllWhole s' := by
  unfold Nested.assign at h
  split at h
  · cases h
  rename_i hok
  injection h with h
  subst h
  have hwhole : AllWhole (s.put rhs lhs) := by
    refine ⟨fun n x hx => ?_, fun a i x hx => ?_⟩
    · refine whole_put ?_
      cases lhs with
      | named m =>
        simp only [State.put] at hx
        split at hx
        · exact hr x hx
        · exact hw.1 _ _ hx
      | slot obj j => exact hw.1 _ _ hx
    · refine whole_put ?_
      cases lhs with
      | named m => exact hw.2 _ _ _ hx
      | slot obj j =>
        rcases slotOf_set hx with h1 | ⟨-, -, h1⟩
        · exact hw.2 _ _ _ h1
        · exact hr x h1
  refine ⟨?_, hwhole⟩
  cases lhs with
  | named n => exact hc
  | slot obj i =>
    cases rhs with
    | none =>
      intro a ha
      refine hc a (TransGen.mono (fun x y hxy => ?_) _ _ ha)
      obtain ⟨k, z, hz, hzy⟩ := hxy
      rcases slotOf_set hz with h1 | ⟨-, -, h1⟩
      · exact ⟨k, z, h1, hzy⟩
      · cases h1
    | some x =>
      by_cases hex : ∃ slots, s.heap[obj]? = some slots ∧ i < slots.length
      · obtain ⟨slots, ho, hi⟩ := hex
        have hn : ¬ ReflTransGen (Owns s.heap) x.obj obj := by
          intro hre
          exact check_finds hw.2 ho hi hre rfl (hr x rfl) fuel hok
        refine noCycle_add (b := obj) (S := (· = x.obj)) ?_ (fun o ho => ho ▸ hn) hc
        rintro a b ⟨k, z, hz, hzy⟩
        rcases slotOf_set hz with h1 | ⟨h1, -, h2⟩
        · exact .inl ⟨k, z, h1, hzy⟩
        · cases h2
          exact .inr ⟨h1, hzy.symm⟩
      · intro a' ha
        refine hc a' (TransGen.mono (fun a y hxy => ?_) _ _ ha)
        obtain ⟨k, z, hz, hzy⟩ := hxy
        rcases slotOf_set hz with h1 | ⟨h1, h2, -⟩
        · exact ⟨k, z, h1, hzy⟩
        · exfalso
          subst h1
          subst h2
          obtain ⟨sl, q1, q2⟩ := slot_some hz
          apply hex
          by_cases hlt : a < s.heap.length
          · obtain ⟨sl', q3, q4⟩ := getElem?_put (h := s.heap) (obj := a) (i := k) (a := a) (x := some x) (List.getElem?_eq_getElem hlt)
            simp only [State.put] at q1
            rw [q1] at q3
            cases q3
            exact ⟨_, List.getElem?_eq_getElem hlt, by rw [← q4]; exact q2⟩
          · simp only [State.put] at q1
            rw [List.getElem?_eq_none (by rw [List.length_set]; exact not_lt.1 hlt)] at q1
            cases q1

private theorem slotOf_append {h : Heap} {n a i : Nat} {x : Handle} (hx : slotOf (h ++ [List.replicate n none]) a i = some x) : slotOf h a i = some x := by
  unfold slotOf at hx ⊢
  by_cases ha : a < h.length
  · rw [List.getElem?_append_left ha] at hx; exact hx
  · exfalso
    rw [List.getElem?_append_right (not_lt.1 ha)] at hx
    cases hk : a - h.length with
    | zero =>
      rw [hk] at hx
      simp only [List.getElem?_cons_zero, Option.bind_some, List.getElem?_replicate] at hx
      split at hx <;> simp at hx
    | succ k => rw [hk] at hx; simp at hx

private theorem whole_append {h : Heap} {t : List (Option Handle)} {x : Handle} (hx : Whole h x) : Whole (h ++ [t]) x := by
  obtain ⟨sl, h1, h2⟩ := hx
  refine ⟨sl, ?_, h2⟩
  have hlt : x.obj < h.length := by
    by_contra hc
    rw [List.getElem?_eq_none (not_lt.1 hc)] at h1; cases h1
  rw [List.getElem?_append_left hlt]; exact h1

/-- The program takes no slices. -/
def NoSlices (ops : List Op) : Prop := ∀ op ∈ ops, match op with | .slice .. => False | _ => True

/-- **C75** (programs): whatever a program without slices does, starting from nothing, there is never a cycle. -/
theorem C75_programs_partial (fuel : Nat) (ops : List Op) (ho : NoSlices ops) : NoCycle (run fuel ⟨[], fun _ => none⟩ ops).heap := by
  suffices H : ∀ (ops : List Op) (s : State), NoSlices ops → NoCycle s.heap → AllWhole s → NoCycle (run fuel s ops).heap by
    refine H ops _ ho ?_ ⟨by simp, by simp [slotOf]⟩
    intro a ha
    cases ha with
    | single h => obtain ⟨i, x, hx, -⟩ := h; simp [slotOf] at hx
    | tail _ h => obtain ⟨i, x, hx, -⟩ := h; simp [slotOf] at hx
  intro ops
  induction ops with
  | nil => intro s _ hc _; exact hc
  | cons op ops ih =>
    intro s ho hc hw
    have ho' : NoSlices ops := fun o h => ho o (by simp [h])
    unfold run
    cases hs : step fuel s op with
    | error e => exact ih s ho' hc hw
    | ok s' =>
      have hop := ho op (by simp)
      cases op with
      | slice n src k => exact absurd hop (by simp)
      | assign lhs src =>
        have := C75_assign_partial fuel s s' lhs (s.get src) hc hw (by
          intro x hx
          cases src with
          | named n => exact hw.1 _ _ hx
          | slot a i => exact hw.2 _ _ _ hx) hs
        exact ih s' ho' this.1 this.2
      | make name n =>
        simp only [step, Except.ok.injEq] at hs
        subst hs
        refine ih _ ho' ?_ ⟨?_, ?_⟩
        · intro a ha
          refine hc a (TransGen.mono (fun u y hxy => ?_) _ _ ha)
          obtain ⟨k, z, hz, hzy⟩ := hxy
          exact ⟨k, z, slotOf_append hz, hzy⟩
        · intro m x hx
          simp only [] at hx
          split at hx
          · cases hx
            exact ⟨List.replicate n none, by simp, fun i hi => by simpa using hi⟩
          · exact whole_append (hw.1 _ _ hx)
        · intro a i x hx
          exact whole_append (hw.2 _ _ _ (slotOf_append hx))

/-- The program: `a` of two elements, `b` of one; `b[0] = a`, then `a[1] = b`, which is refused, then `a[0] = c` for another `c`. -/
example : let ops : List Op := [.make 0 2, .make 1 1, .assign (.slot 1 0) (.named 0), .assign (.slot 0 1) (.named 1), .make 2 1, .assign (.slot 0 0) (.named 2)]
    NoSlices ops ∧ (run 5 ⟨[], fun _ => none⟩ ops).heap = [[some ⟨2, [0]⟩, none], [some ⟨0, [0, 1]⟩], [none]] := by
  refine ⟨?_, by decide⟩
  intro op h
  simp only [List.mem_cons, List.not_mem_nil, or_false] at h
  rcases h with rfl | rfl | rfl | rfl | rfl | rfl <;> trivial

/-- Element `p` holds a variable that refers to element `q`. -/
def Sees (h : Heap) (p q : Nat × Nat) : Prop := ∃ x, slotOf h p.1 p.2 = some x ∧ x.obj = q.1 ∧ q.2 ∈ x.elems

/-- Element `q` can be reached from the variable `x` by going to elements of elements. -/
def Visible (h : Heap) (x : Handle) (q : Nat × Nat) : Prop := ∃ i ∈ x.elems, ReflTransGen (Sees h) (x.obj, i) q

/-- No element can be reached from itself by going to elements of elements. -/
def NoVisibleCycle (h : Heap) : Prop := ∀ p, ¬ TransGen (Sees h) p p

private theorem check_visible {h : Heap} {q : Nat × Nat} {p : Nat × Nat} (hr : ReflTransGen (Sees h) p q) :
    ∀ {x : Handle}, x.obj = p.1 → p.2 ∈ x.elems → ∀ fuel, check h (.slot q.1 q.2) fuel (some x) ≠ .ok () := by
  induction hr using ReflTransGen.head_induction_on with
  | refl =>
    intro x hx hm fuel
    cases fuel with
    | zero => simp [check]
    | succ fuel =>
      unfold check
      exact checkElems_error hm (.inl (by rw [hx]))
  | head hac _ ih =>
    intro x hx hm fuel
    cases fuel with
    | zero => simp [check]
    | succ fuel =>
      obtain ⟨y, hy, hyc, hyi⟩ := hac
      unfold check
      refine checkElems_error hm (.inr ?_)
      rw [hx, hy]
      exact ih hyc hyi fuel

private theorem check_refused {h : Heap} {obj i : Nat} (fuel : Nat) :
    ∀ rhs : Option Handle, check h (.slot obj i) fuel rhs = .error .invalidArgument → ∃ x, rhs = some x ∧ Visible h x (obj, i) := by
  induction fuel with
  | zero =>
    intro rhs hc
    cases rhs <;> simp [check] at hc
  | succ fuel ih =>
    intro rhs hc
    cases rhs with
    | none => simp [check] at hc
    | some x =>
      refine ⟨x, rfl, ?_⟩
      unfold check at hc
      have : ∀ l : List Nat, (∀ j ∈ l, j ∈ x.elems) →
          checkElems h (.slot obj i) (check h (.slot obj i) fuel) x.obj l = .error .invalidArgument → Visible h x (obj, i) := by
        intro l
        induction l with
        | nil => intro _ hl; simp [checkElems] at hl
        | cons j l ihl =>
          intro hsub hl
          unfold checkElems at hl
          split at hl
          · rename_i he
            injection he with he1 he2
            exact ⟨j, hsub j (by simp), by rw [he1, he2]⟩
          · split at hl
            · rename_i e he
              injection hl with hl
              subst hl
              obtain ⟨y, hy, k, hk, hr⟩ := ih _ he
              exact ⟨j, hsub j (by simp), ReflTransGen.head ⟨y, hy, rfl, hk⟩ hr⟩
            · exact ihl (fun k hk => hsub k (by simp [hk])) hl
      exact this _ (fun _ h => h) hc

private theorem check_cases {h : Heap} {lhs : Loc} : ∀ (fuel : Nat) (rhs : Option Handle),
    check h lhs fuel rhs = .ok () ∨ check h lhs fuel rhs = .error .invalidArgument ∨ check h lhs fuel rhs = .error .ub := by
  intro fuel
  induction fuel with
  | zero => intro rhs; cases rhs <;> simp [check]
  | succ fuel ih =>
    intro rhs
    cases rhs with
    | none => simp [check]
    | some x =>
      unfold check
      induction x.elems with
      | nil => simp [checkElems]
      | cons j l ihl =>
        unfold checkElems
        split
        · simp
        · rcases ih (slotOf h x.obj j) with h1 | h1 | h1 <;> rw [h1]
          · exact ihl
          · simp
          · simp

/-- **C75** (refused): an assignment to an element is refused exactly if the element can be reached from the right-hand side. (`hs`: there is enough stack, see `C75_check_ends`.) -/
theorem C75_refused_iff (fuel : Nat) (s : State) (obj i : Nat) (x : Handle) (hs : Nested.assign fuel s (.slot obj i) (some x) ≠ .error .ub) :
    Nested.assign fuel s (.slot obj i) (some x) = .error .invalidArgument ↔ Visible s.heap x (obj, i) := by
  unfold Nested.assign at *
  constructor
  · intro h
    split at h
    · rename_i e he
      injection h with h
      subst h
      obtain ⟨y, hy, hv⟩ := check_refused fuel _ he
      cases hy
      exact hv
    · cases h
  · rintro ⟨j, hj, hr⟩
    have := check_visible (q := (obj, i)) hr (x := x) rfl hj fuel
    rcases check_cases (h := s.heap) (lhs := .slot obj i) fuel (some x) with h1 | h1 | h1
    · exact absurd h1 this
    · simp [h1]
    · simp [h1] at hs

example : let s : State := ⟨[[none, none], [some ⟨0, [0, 1]⟩]], fun _ => none⟩
    Nested.assign 5 s (.slot 0 1) (some ⟨1, [0]⟩) = .error .invalidArgument ∧ Visible s.heap ⟨1, [0]⟩ (0, 1) := by
  refine ⟨rfl, 0, by simp, .single ⟨⟨0, [0, 1]⟩, rfl, rfl, by simp⟩⟩

private theorem sees_owns {h : Heap} {p q : Nat × Nat} (hs : Sees h p q) : Owns h p.1 q.1 := by
  obtain ⟨x, hx, ho, -⟩ := hs
  exact ⟨p.2, x, hx, ho⟩

/-- **C75** (refused): what is refused would make a cycle: the array of the right-hand side is that of the left-hand side, or keeps it alive. -/
theorem C75_refused (fuel : Nat) (s : State) (obj i : Nat) (x : Handle)
    (h : Nested.assign fuel s (.slot obj i) (some x) = .error .invalidArgument) : x.obj = obj ∨ TransGen (Owns s.heap) x.obj obj := by
  obtain ⟨j, hj, hr⟩ := (C75_refused_iff fuel s obj i x (by rw [h]; simp)).1 h
  have : ReflTransGen (Owns s.heap) x.obj obj := ReflTransGen.lift Prod.fst (fun _ _ => sees_owns) _ _ hr
  rcases reflTransGen_iff_eq_or_transGen.1 this with h1 | h1
  · exact .inl h1.symm
  · exact .inr h1

private theorem put_visible {s : State} {lhs : Loc} {rhs : Option Handle} (hc : NoVisibleCycle s.heap)
    (hn : ∀ obj i x, lhs = .slot obj i → rhs = some x → ¬ Visible s.heap x (obj, i)) : NoVisibleCycle (s.put rhs lhs).heap := by
  cases lhs with
  | named n => exact hc
  | slot obj i =>
    refine noCycle_add (b := (obj, i)) (S := fun q => ∃ x, rhs = some x ∧ x.obj = q.1 ∧ q.2 ∈ x.elems) ?_ ?_ hc
    · rintro p q ⟨y, hy, h1, h2⟩
      rcases slotOf_set hy with h3 | ⟨h3, h4, h5⟩
      · exact .inl ⟨y, h3, h1, h2⟩
      · exact .inr ⟨by rw [← h3, ← h4], y, h5, h1, h2⟩
    · rintro q ⟨x, hx, h1, h2⟩ hr
      exact hn obj i x rfl hx ⟨q.2, h2, by rw [h1]; exact hr⟩

/-- **C75** (programs): whatever a program does, with slices too, starting from nothing, no element can be reached from itself by going to elements of elements. -/
theorem C75_programs (fuel : Nat) (ops : List Op) : NoVisibleCycle (run fuel ⟨[], fun _ => none⟩ ops).heap := by
  have assign_ok : ∀ {s s' : State} {lhs : Loc} {rhs : Option Handle}, NoVisibleCycle s.heap → Nested.assign fuel s lhs rhs = .ok s' → NoVisibleCycle s'.heap := by
    intro s s' lhs rhs hc h
    unfold Nested.assign at h
    split at h
    · cases h
    rename_i hok
    injection h with h
    subst h
    refine put_visible hc ?_
    rintro obj i x rfl rfl ⟨j, hj, hr⟩
    exact check_visible (q := (obj, i)) hr (x := x) rfl hj fuel hok
  suffices H : ∀ (ops : List Op) (s : State), NoVisibleCycle s.heap → NoVisibleCycle (run fuel s ops).heap by
    refine H ops _ ?_
    intro a ha
    cases ha with
    | single h => obtain ⟨x, hx, -⟩ := h; simp [slotOf] at hx
    | tail _ h => obtain ⟨x, hx, -⟩ := h; simp [slotOf] at hx
  intro ops
  induction ops with
  | nil => intro s hc; exact hc
  | cons op ops ih =>
    intro s hc
    unfold run
    cases hs : step fuel s op with
    | error e => exact ih s hc
    | ok s' =>
      refine ih s' ?_
      cases op with
      | slice n src k => exact assign_ok hc hs
      | assign lhs src => exact assign_ok hc hs
      | make name n =>
        simp only [step, Except.ok.injEq] at hs
        subst hs
        intro a ha
        refine hc a (TransGen.mono (fun u y hxy => ?_) _ _ ha)
        obtain ⟨z, hz, hzy⟩ := hxy
        exact ⟨z, slotOf_append hz, hzy⟩

/-- `a` of two elements, `b` of one, `b[0] = a[1:2]`, then `a[1] = b` is refused but `a[0] = b` accepted. -/
example : (run 5 ⟨[], fun _ => none⟩ [.make 0 2, .make 1 1, .slice 2 (.named 0) [1], .assign (.slot 1 0) (.named 2), .assign (.slot 0 1) (.named 1),
    .assign (.slot 0 0) (.named 1)]).heap = [[some ⟨1, [0]⟩, none], [some ⟨0, [1]⟩]] := by decide

private theorem lengths_bounded (h : Heap) : ∃ m, ∀ sl ∈ h, sl.length ≤ m := by
  induction h with
  | nil => exact ⟨0, by simp⟩
  | cons sl h ih =>
    obtain ⟨m, hm⟩ := ih
    refine ⟨max sl.length m, fun t ht => ?_⟩
    rcases List.mem_cons.1 ht with rfl | ht
    · exact le_max_left _ _
    · exact le_trans (hm t ht) (le_max_right _ _)

private theorem visible_acc {h : Heap} (hc : NoVisibleCycle h) (p : Nat × Nat) : Acc (fun c b => Sees h b c) p := by
  obtain ⟨m, hm⟩ := lengths_bounded h
  have out : ∀ b c, Sees h b c → b.1 < h.length ∧ b.2 < m := by
    rintro b c ⟨x, hx, -⟩
    obtain ⟨sl, h1, h2⟩ := slot_some hx
    obtain ⟨hlt, rfl⟩ := List.getElem?_eq_some_iff.1 h1
    exact ⟨hlt, lt_of_lt_of_le h2 (hm _ (List.getElem_mem hlt))⟩
  have wf : WellFounded (fun x y : Fin h.length × Fin m => TransGen (Sees h) (y.1.1, y.2.1) (x.1.1, x.2.1)) := by
    have : IsTrans (Fin h.length × Fin m) (fun x y => TransGen (Sees h) (y.1.1, y.2.1) (x.1.1, x.2.1)) := ⟨fun x y z h1 h2 => h2.trans h1⟩
    have : Std.Irrefl (fun x y : Fin h.length × Fin m => TransGen (Sees h) (y.1.1, y.2.1) (x.1.1, x.2.1)) := ⟨fun x hx => hc _ hx⟩
    exact Finite.wellFounded_of_trans_of_irrefl _
  have fin : ∀ x : Fin h.length × Fin m, Acc (fun c b => Sees h b c) (x.1.1, x.2.1) := by
    intro x
    induction x using wf.induction with
    | _ x ih =>
      refine ⟨_, fun c hcx => ?_⟩
      by_cases hlt : c.1 < h.length ∧ c.2 < m
      · exact ih (⟨c.1, hlt.1⟩, ⟨c.2, hlt.2⟩) (.single hcx)
      · exact ⟨_, fun d hd => absurd (out _ _ hd) hlt⟩
  refine ⟨_, fun c hca => ?_⟩
  have := out _ _ hca
  exact (fin (⟨p.1, this.1⟩, ⟨p.2, this.2⟩)).inv hca

private theorem fuel_mono {h : Heap} {lhs : Loc} : ∀ (fuel : Nat) (rhs : Option Handle), check h lhs fuel rhs ≠ .error .ub →
    ∀ fuel', fuel ≤ fuel' → check h lhs fuel' rhs = check h lhs fuel rhs := by
  intro fuel
  induction fuel with
  | zero =>
    intro rhs hne fuel' _
    cases rhs with
    | none => cases fuel' <;> simp [check]
    | some x => simp [check] at hne
  | succ fuel ih =>
    intro rhs hne fuel' hle
    obtain ⟨f, rfl⟩ : ∃ f, fuel' = f + 1 := ⟨fuel' - 1, by omega⟩
    cases rhs with
    | none => simp [check]
    | some x =>
      unfold check at hne ⊢
      have : ∀ l, checkElems h lhs (check h lhs fuel) x.obj l ≠ .error .ub →
          checkElems h lhs (check h lhs f) x.obj l = checkElems h lhs (check h lhs fuel) x.obj l := by
        intro l
        induction l with
        | nil => intro _; simp [checkElems]
        | cons j l ihl =>
          intro hl
          unfold checkElems at hl ⊢
          split
          · rfl
          · rename_i hnj
            rw [if_neg hnj] at hl
            have h1 : check h lhs fuel (slotOf h x.obj j) ≠ .error .ub := by
              intro hcc
              rw [hcc] at hl
              simp at hl
            rw [ih _ h1 f (by omega)]
            cases hk : check h lhs fuel (slotOf h x.obj j) with
            | error e => rfl
            | ok u =>
              rw [hk] at hl
              exact ihl hl
      exact this _ hne

/-- **C75** (termination): after any program the recursion of the check ends, for any assignment, with the same result however much stack there is beyond what it needs. -/
theorem C75_check_ends (f : Nat) (ops : List Op) (lhs : Loc) (rhs : Option Handle) :
    ∃ fuel r, r ≠ .error .ub ∧ ∀ fuel', fuel ≤ fuel' → check (run f ⟨[], fun _ => none⟩ ops).heap lhs fuel' rhs = r := by
  have hc := C75_programs f ops
  generalize (run f ⟨[], fun _ => none⟩ ops).heap = h at hc
  suffices H : ∃ fuel, check h lhs fuel rhs ≠ .error .ub by
    obtain ⟨fuel, hf⟩ := H
    exact ⟨fuel, _, hf, fun fuel' hle => fuel_mono fuel rhs hf fuel' hle⟩
  have all : ∀ (a : Nat) (l : List Nat), (∀ j ∈ l, ∃ fuel, check h lhs fuel (slotOf h a j) ≠ .error .ub) →
      ∃ fuel, ∀ j ∈ l, check h lhs fuel (slotOf h a j) ≠ .error .ub := by
    intro a l
    induction l with
    | nil => intro _; exact ⟨0, by simp⟩
    | cons j l ihl =>
      intro hl
      obtain ⟨f1, h1⟩ := hl j (by simp)
      obtain ⟨f2, h2⟩ := ihl (fun k hk => hl k (by simp [hk]))
      refine ⟨max f1 f2, fun k hk => ?_⟩
      rcases List.mem_cons.1 hk with rfl | hk
      · rw [fuel_mono f1 _ h1 _ (le_max_left _ _)]; exact h1
      · rw [fuel_mono f2 _ (h2 k hk) _ (le_max_right _ _)]; exact h2 k hk
  have loop : ∀ (fuel a : Nat) (l : List Nat), (∀ k ∈ l, check h lhs fuel (slotOf h a k) ≠ .error .ub) →
      checkElems h lhs (check h lhs fuel) a l ≠ .error .ub := by
    intro fuel a l
    induction l with
    | nil => intro _; simp [checkElems]
    | cons k l ihl =>
      intro hl
      unfold checkElems
      split
      · simp
      · split
        · rename_i e he
          intro hcc
          injection hcc with hcc
          exact hl k (by simp) (by rw [he, hcc])
        · exact ihl (fun k' hk' => hl k' (by simp [hk']))
  have slots : ∀ p : Nat × Nat, ∃ fuel, check h lhs fuel (slotOf h p.1 p.2) ≠ .error .ub := by
    intro p
    induction visible_acc hc p with
    | intro p _ ih =>
      cases hs : slotOf h p.1 p.2 with
      | none => exact ⟨0, by simp [check]⟩
      | some x =>
        obtain ⟨fuel, hf⟩ := all x.obj x.elems (fun j hj => ih (x.obj, j) ⟨x, hs, rfl, hj⟩)
        exact ⟨fuel + 1, by unfold check; exact loop fuel x.obj x.elems hf⟩
  cases rhs with
  | none => exact ⟨0, by simp [check]⟩
  | some x =>
    obtain ⟨fuel, hf⟩ := all x.obj x.elems (fun j _ => slots (x.obj, j))
    exact ⟨fuel + 1, by unfold check; exact loop fuel x.obj x.elems hf⟩

/-- Three levels: stack for three calls is enough. -/
example : let h : Heap := [[some ⟨1, [0]⟩], [some ⟨2, [0]⟩], [none]]
    check h (.slot 2 0) 2 (some ⟨1, [0]⟩) = .error .invalidArgument ∧ check h (.named 0) 3 (some ⟨0, [0]⟩) = .ok () ∧
    check h (.named 0) 2 (some ⟨0, [0]⟩) = .error .ub := ⟨rfl, rfl, rfl⟩

/-- **C75** (wrong): with slices there can be cycles of arrays that keep one another alive. Element 0 of an array may be assigned a slice of the variable that does not
include element 0: the array then keeps itself alive and is never freed. -/
theorem C75_wrong_slice : ∃ ops : List Op, ¬ NoCycle (run 9 ⟨[], fun _ => none⟩ ops).heap := by
  refine ⟨[.make 0 2, .slice 1 (.named 0) [1], .assign (.slot 0 0) (.named 1)], fun h => h 0 (.single ⟨0, ⟨0, [1]⟩, by decide, rfl⟩)⟩

end Scipp.Props
