import Verif.Lemmas.NumpyReduce2
import Mathlib.Algebra.Field.Rat
/-!
C112: reductions over one, several or all dims (`median`, `var`, `std` computed with NumPy, `sum` over several dims).
-/
namespace Scipp.Props
open Sizes NpRed
variable {V W U : Type}

/-- Data without variances and not binned. -/
def C112Plain (x : PVar V U) : Prop := x.variances = false ∧ x.binned = false

theorem c112_plain {x : PVar V U} (h : C112Plain x) : expectPlain x = .ok () := by simp [expectPlain, h.1, h.2]

/-- **C112** (variables): the reduced dims disappear, the others keep their order and extents; every output element is the function of exactly the elements
with the same remaining coordinates, whatever the order of the dims in the variable; the unit is that of the function. -/
theorem C112_variable (F : Func V W U) (x : PVar V U) (hx : x.arr.Ok) (hp : C112Plain x) (dim : Option (List Dim)) (hv : ValidDims x.arr.dims (asked x.arr.dims dim)) :
    ∃ r, reduceVar F x dim = .ok r ∧ r.arr.dims = keptDims x.arr.dims (asked x.arr.dims dim) ∧ r.unit = x.unit.map F.unitFunc ∧
      r.variances = false ∧ r.binned = false ∧
      ∀ c, InDims r.arr.dims c → r.arr.val c = F.func ((over (redDims x.arr.dims (asked x.arr.dims dim)) c).map x.arr.val) := by
  have ha : asked x.arr.dims dim = concreteDims x.arr.dims dim := by cases dim <;> rfl
  rw [ha] at hv ⊢
  obtain ⟨vals, h1, h2, h3⟩ := array_reduce hx hv (values x.arr) rfl F.func
  have hax := dimsToAxis_ok.2 ⟨hv.2, rfl⟩
  refine ⟨_, by simp only [reduceVar, c112_plain hp, bind, Except.bind, hax, h1, h2]; rfl, rfl, rfl, rfl, rfl, fun c hc => ?_⟩
  exact h3 x.arr.val (fun is c h => values_get hx h c) c hc

/-- A 2-D variable whose dims are reduced in part, and a scalar. -/
example : ∃ x : PVar Int Nat, x.arr.Ok ∧ C112Plain x ∧ x.arr.dims = [(2, 2), (3, 3)] ∧ ValidDims x.arr.dims (asked x.arr.dims (some [3])) ∧
    ValidDims x.arr.dims (asked x.arr.dims none) := by
  refine ⟨{ arr := ⟨[(2, 2), (3, 3)], fun c => c 2 * 10 + c 3⟩, unit := none }, ⟨⟨by decide, by decide⟩, by decide, fun c c' h => ?_⟩, ⟨rfl, rfl⟩, rfl,
    ⟨by decide, by decide⟩, ⟨by decide, by decide⟩⟩
  simp only [h 2 (by decide), h 3 (by decide)]

/-- A 2-D variable with the elements of a matrix, reduced along either dim. -/
example : ((over (redDims [(2, 2), (3, 3)] [2]) (fun d => if d = 3 then 1 else 0)).map (fun c : Dim → Int => c 2 * 10 + c 3)) = [1, 11] ∧
    ((over (redDims [(2, 2), (3, 3)] [3, 2]) (fun _ => 0)).map (fun c : Dim → Int => c 2 * 10 + c 3)) = [0, 1, 2, 10, 11, 12] := by decide

theorem c112_array (F : Func V W U) (x : PArr V U) (hx : x.Ok) (hp : C112Plain x.data) (dim : Option (List Dim))
    (hv : ValidDims x.data.arr.dims (asked x.data.arr.dims dim))
    (hm : F.masked = true ∨ ∀ p ∈ x.masks, ¬ Depends p.2.arr.dims (asked x.data.arr.dims dim)) :
    ∃ r, reduceArr F x dim = .ok r ∧ r.data.arr.dims = keptDims x.data.arr.dims (asked x.data.arr.dims dim) ∧ r.data.unit = x.data.unit ∧
      r.data.variances = false ∧ r.data.binned = false ∧
      (∀ c, InDims r.data.arr.dims c → ((∀ p ∈ x.masks, ¬ Depends p.2.arr.dims (asked x.data.arr.dims dim)) →
        r.data.arr.val c = F.func ((over (redDims x.data.arr.dims (asked x.data.arr.dims dim)) c).map x.data.arr.val)) ∧
        ((∃ p ∈ x.masks, Depends p.2.arr.dims (asked x.data.arr.dims dim)) → r.data.arr.val c = (F.ma ((over (redDims x.data.arr.dims (asked x.data.arr.dims dim)) c).map
          (fun e => if maskedAt x.masks (asked x.data.arr.dims dim) e then none else some (x.data.arr.val e)))).1)) ∧
      r.coords = x.coords.filter (fun p => decide (¬ Depends p.2.dims (asked x.data.arr.dims dim))) ∧
      r.attrs = x.attrs.filter (fun p => decide (¬ Depends p.2.dims (asked x.data.arr.dims dim))) ∧
      r.masks = (x.masks.filter (fun p => decide (¬ Depends p.2.arr.dims (asked x.data.arr.dims dim)))).map (fun p => (p.1, p.2.copy)) := by
  have ha : asked x.data.arr.dims dim = concreteDims x.data.arr.dims dim := by cases dim <;> rfl
  rw [ha] at hv hm ⊢
  set red := concreteDims x.data.arr.dims dim with hred
  have hax := dimsToAxis_ok.2 ⟨hv.2, rfl⟩
  have hD := hx.masked.data
  have hkw := kept_wf hD.wf red
  have hitems : ∀ {M : Type} (f : M → Dims) (l : List (Dim × M)), reducedItems f l red = l.filter (fun p => decide (¬ Depends (f p.2) red)) := by
    intro M f l
    unfold reducedItems
    refine List.filter_congr (fun p _ => ?_)
    rw [depends_iff, Bool.eq_iff_iff]
    simp
  -- the values
  have hvals : ∃ vals, arrayValues F x red (red.map (fun d => (labels x.data.arr.dims).idxOf d)) = .ok vals ∧
      array (outDims (labels x.data.arr.dims) red) vals = .ok ⟨keptDims x.data.arr.dims red, fun c => vals.get ((outDims (labels x.data.arr.dims) red).map c)⟩ ∧
      ∀ c, InDims (keptDims x.data.arr.dims red) c → ((∀ p ∈ x.masks, ¬ Depends p.2.arr.dims red) →
        vals.get ((outDims (labels x.data.arr.dims) red).map c) = F.func ((over (redDims x.data.arr.dims red) c).map x.data.arr.val)) ∧
        ((∃ p ∈ x.masks, Depends p.2.arr.dims red) → vals.get ((outDims (labels x.data.arr.dims) red).map c) =
          (F.ma ((over (redDims x.data.arr.dims red) c).map (fun e => if maskedAt x.masks red e then none else some (x.data.arr.val e)))).1) := by
    obtain ⟨m, hm1, hm2, hm3⟩ := irreducible_ok hD.wf (masks := x.masks) hx.masked.masks red
    unfold arrayValues
    simp only [hm1, bind, Except.bind]
    cases m with
    | none =>
      have hno := hm2.1 rfl
      obtain ⟨vals, h1, h2, h3⟩ := array_reduce hD hv (values x.data.arr) rfl F.func
      refine ⟨vals, h1, h2, fun c hc => ⟨fun _ => h3 x.data.arr.val (fun is c h => values_get hD h c) c hc, ?_⟩⟩
      rintro ⟨p, hp1, hp2⟩
      exact absurd hp2 (hno p hp1)
    | some m =>
      obtain ⟨m1, m2, m3⟩ := hm3 m rfl
      have hsome : ¬ ∀ p ∈ x.masks, ¬ Depends p.2.arr.dims red := fun h => by have := hm2.2 h; cases this
      have hF : F.masked = true := by
        rcases hm with h | h
        · exact h
        · exact absurd h hsome
      have hb : broadcast m.arr x.data.arr.dims = .ok ⟨x.data.arr.dims, m.arr.val⟩ := by
        unfold broadcast
        rw [if_pos ((includes_iff hD.wf.1 m2.1).2 m1)]
      obtain ⟨vals, h1, h2, h3⟩ := array_reduce hD hv (maskedWhere (values ⟨x.data.arr.dims, m.arr.val⟩) (values x.data.arr)) rfl (fun l => (F.ma l).1)
      refine ⟨vals, by simp only [hb, hF, Bool.not_true, Bool.false_eq_true, if_false]; exact h1, h2, fun c hc => ⟨fun h => absurd h hsome, fun _ => ?_⟩⟩
      refine h3 (fun e => if maskedAt x.masks red e then none else some (x.data.arr.val e)) (fun is c h => ?_) c hc
      unfold maskedWhere
      dsimp only
      have hmv : (values (⟨x.data.arr.dims, m.arr.val⟩ : Arr Bool)).get is = maskedAt x.masks red (assign x.data.arr.dims is c) := by
        rw [← m3]
        have hok : (⟨x.data.arr.dims, m.arr.val⟩ : Arr Bool).Ok := by
          refine ⟨hD.wf, hD.valid, fun c c' hcc => ?_⟩
          dsimp only
          rw [m3, m3]
          unfold maskedAt
          rw [Bool.eq_iff_iff, List.any_eq_true, List.any_eq_true]
          have hv' : ∀ p ∈ x.masks, p.2.arr.val c = p.2.arr.val c' := fun p hp =>
            (hx.masked.masks p hp).1.own c c' (fun d hd => hcc d (labels_mono (hx.masked.masks p hp).2.2 d hd))
          constructor
          · rintro ⟨p, hp, h⟩; exact ⟨p, hp, by rw [← hv' p hp]; exact h⟩
          · rintro ⟨p, hp, h⟩; exact ⟨p, hp, by rw [hv' p hp]; exact h⟩
        exact values_get hok h c
      rw [hmv, values_get hD h c]
  obtain ⟨vals, h1, h2, h3⟩ := hvals
  -- coords, attrs and masks
  have hdict : ∀ l : List (Dim × Entry), (l.map Prod.fst).Nodup → (∀ p ∈ l, p.2.view.WF ∧ p.2.binned = false ∧ Fits x.data.arr.dims p.2.dims) →
      SizedDict.ofItems (keptDims x.data.arr.dims red) (reducedItems Entry.dims l red) false =
        .ok ⟨keptDims x.data.arr.dims red, reducedItems Entry.dims l red, false⟩ := by
    intro l hn hl
    rw [hitems]
    rw [DropDim.ofItems_iff hkw (hn.sublist (List.filter_sublist.map _)) (fun p hp => (hl p (List.mem_filter.1 hp).1).1)]
    refine ⟨fun p hp => ?_, rfl⟩
    have hp' := List.mem_filter.1 hp
    exact ⟨(hl p hp'.1).2.1, fits_kept (hl p hp'.1).2.2 (by simpa using hp'.2)⟩
  have hmasks := setMasks hkw ((reducedItems (fun m : MaskVar => m.arr.dims) x.masks red).map (fun p => (p.1, p.2.copy))) [] (by
      intro p hp
      obtain ⟨q, hq, rfl⟩ := List.mem_map.1 hp
      rw [hitems] at hq
      have hq' := List.mem_filter.1 hq
      have hg := hx.masked.masks q hq'.1
      exact ⟨hg.1.wf, fits_kept (fits_of_sub hg.2.2) (by
        show ¬ Depends q.2.arr.dims red
        simpa using hq'.2)⟩) (by
      rw [hitems, List.nil_append, List.map_map]
      exact hx.names.2.2.sublist ((List.filter_sublist).map _))
  refine ⟨⟨{ arr := ⟨keptDims x.data.arr.dims red, fun c => vals.get ((outDims (labels x.data.arr.dims) red).map c)⟩, unit := x.data.unit },
    reducedItems Entry.dims x.coords red, reducedItems Entry.dims x.attrs red, (reducedItems (fun m : MaskVar => m.arr.dims) x.masks red).map (fun p => (p.1, p.2.copy))⟩,
    ?_, rfl, rfl, rfl, rfl, h3, hitems _ _, hitems _ _, congrArg (List.map _) (hitems _ _)⟩
  simp only [reduceArr, c112_plain hp, bind, Except.bind, ← hred, hax, h1, h2, rewrap, hdict x.coords hx.names.1 (fun p h => hx.items p (.inl h)),
    hdict x.attrs hx.names.2.1 (fun p h => hx.items p (.inr h)), hmasks, List.nil_append]

/-- **C112** (data arrays, values and metadata; partial: the unit is not that of the function, see `C112_wrong_unit`, and output elements to which too few unmasked elements
contribute are wrong, see `C112_wrong_masked`): the dims are as for variables; every output element with enough contributing elements is the function of exactly the elements that have the same
remaining coordinates and are not masked by any of the masks depending on a reduced dim; coords and attrs depending on a reduced dim are dropped, the
others are kept; masks likewise. -/
theorem C112_array_partial (F : Func V W U) (x : PArr V U) (hx : x.Ok) (hp : C112Plain x.data) (dim : Option (List Dim))
    (hv : ValidDims x.data.arr.dims (asked x.data.arr.dims dim))
    (hm : F.masked = true ∨ ∀ p ∈ x.masks, ¬ Depends p.2.arr.dims (asked x.data.arr.dims dim)) :
    ∃ r, reduceArr F x dim = .ok r ∧ r.data.arr.dims = keptDims x.data.arr.dims (asked x.data.arr.dims dim) ∧ r.data.unit = x.data.unit ∧
      r.data.variances = false ∧ r.data.binned = false ∧
      (∀ c, InDims r.data.arr.dims c →
        F.enough (contributing x.data.arr x.masks (asked x.data.arr.dims dim) c).length = true ∨ (∀ p ∈ x.masks, ¬ Depends p.2.arr.dims (asked x.data.arr.dims dim)) →
        r.data.arr.val c = F.func (contributing x.data.arr x.masks (asked x.data.arr.dims dim) c)) ∧
      r.coords = x.coords.filter (fun p => decide (¬ Depends p.2.dims (asked x.data.arr.dims dim))) ∧
      r.attrs = x.attrs.filter (fun p => decide (¬ Depends p.2.dims (asked x.data.arr.dims dim))) ∧
      r.masks = (x.masks.filter (fun p => decide (¬ Depends p.2.arr.dims (asked x.data.arr.dims dim)))).map (fun p => (p.1, p.2.copy)) := by
  obtain ⟨r, h1, h2, h3, h4, h5, h6, h7⟩ := c112_array F x hx hp dim hv hm
  refine ⟨r, h1, h2, h3, h4, h5, fun c hc hen => ?_, h7⟩
  obtain ⟨g1, g2⟩ := h6 c hc
  by_cases hno : ∀ p ∈ x.masks, ¬ Depends p.2.arr.dims (asked x.data.arr.dims dim)
  · rw [g1 hno]
    have hmk : ∀ e, maskedAt x.masks (asked x.data.arr.dims dim) e = false := by
      intro e
      unfold maskedAt
      rw [List.any_eq_false]
      intro p hp'
      simp [hno p hp']
    simp [contributing, hmk]
  · have hen := hen.resolve_right hno
    rw [g2 (by
      rw [not_forall] at hno
      obtain ⟨p, hp'⟩ := hno
      rw [Classical.not_imp, not_not] at hp'
      exact ⟨p, hp'⟩)]
    have hl : ((over (redDims x.data.arr.dims (asked x.data.arr.dims dim)) c).map
          (fun e => if maskedAt x.masks (asked x.data.arr.dims dim) e then none else some (x.data.arr.val e))).filterMap id =
        contributing x.data.arr x.masks (asked x.data.arr.dims dim) c := by
      unfold contributing
      induction over (redDims x.data.arr.dims (asked x.data.arr.dims dim)) c with
      | nil => rfl
      | cons e l ih =>
        by_cases hb : maskedAt x.masks (asked x.data.arr.dims dim) e = true
        · simp [hb] at ih ⊢; exact ih
        · simp [hb] at ih ⊢; exact ih
    unfold Func.ma
    rw [hl, if_pos hen]

/-- Data with a mask along one dim, and a 1-D coord along each: the mask is applied if that dim is reduced. -/
def c112Arr : PArr Int Nat :=
  { data := { arr := ⟨[(2, 2), (3, 3)], fun c => c 2 * 10 + c 3⟩, unit := some 1 }
    coords := [(2, { view := { dims := [(2, 3)], strides := [1], offset := 0, readonly := false }, obj := 0 }), (3, { view := { dims := [(3, 3)], strides := [1], offset := 0, readonly := false }, obj := 1 })]
    attrs := []
    masks := [(5, { arr := ⟨[(3, 3)], fun c => decide (c 3 = 1)⟩ })] }

theorem c112Arr_ok : c112Arr.Ok := by
  refine ⟨⟨⟨⟨by decide, by decide⟩, by decide, fun c c' h => ?_⟩, ?_⟩, ⟨by decide, by decide, by decide⟩, ?_⟩
  · simp only [c112Arr] at h ⊢
    simp only [h 2 (by decide), h 3 (by decide)]
  · intro p hp
    simp only [c112Arr, List.mem_singleton] at hp
    subst hp
    refine ⟨⟨⟨by decide, by decide⟩, by decide, fun c c' h => ?_⟩, ⟨rfl, rfl⟩, by decide⟩
    simp only
    rw [h 3 (by decide)]
  · intro p hp
    simp only [c112Arr, List.mem_cons, List.not_mem_nil, or_false] at hp
    rcases hp with rfl | rfl
    · exact ⟨⟨⟨by decide, by decide⟩, rfl, by decide⟩, rfl, 2, by simp [Entry.dims], fun n h => .inr (.inl ⟨2, by decide, by simp [Entry.dims] at h; omega⟩)⟩
    · exact ⟨⟨⟨by decide, by decide⟩, rfl, by decide⟩, rfl, fits_of_sub (by decide)⟩

example : c112Arr.Ok ∧ C112Plain c112Arr.data ∧ ValidDims c112Arr.data.arr.dims (asked c112Arr.data.arr.dims (some [3])) ∧
    contributing c112Arr.data.arr c112Arr.masks [3] (fun d => if d = 2 then 1 else 0) = [10, 12] ∧
    contributing c112Arr.data.arr c112Arr.masks [2] (fun d => if d = 3 then 1 else 0) = [1, 11] :=
  ⟨c112Arr_ok, ⟨rfl, rfl⟩, ⟨by decide, by decide⟩, by decide, by decide⟩

/-- **C112** (variables and data arrays agree; partial, see `C112_wrong_unit`): without masks depending on the reduced dims, reducing a data array gives the data that
reducing its data as a variable gives, up to the unit; the units agree only if the function leaves the unit alone. -/
theorem C112_agree_partial (F : Func V W U) (x : PArr V U) (hx : x.Ok) (hp : C112Plain x.data) (dim : Option (List Dim))
    (hv : ValidDims x.data.arr.dims (asked x.data.arr.dims dim)) (hm : ∀ p ∈ x.masks, ¬ Depends p.2.arr.dims (asked x.data.arr.dims dim)) :
    ∃ r v, reduceArr F x dim = .ok r ∧ reduceVar F x.data dim = .ok v ∧ r.data.arr.dims = v.arr.dims ∧
      (∀ c, InDims v.arr.dims c → r.data.arr.val c = v.arr.val c) ∧ (r.data.unit = v.unit ↔ x.data.unit = x.data.unit.map F.unitFunc) := by
  obtain ⟨r, h1, h2, h3, -, -, h6, -⟩ := c112_array F x hx hp dim hv (.inr hm)
  obtain ⟨v, g1, g2, g3, -, -, g6⟩ := C112_variable F x.data hx.masked.data hp dim hv
  refine ⟨r, v, h1, g1, h2.trans g2.symm, fun c hc => ?_, by rw [h3, g3]⟩
  rw [(h6 c (by rw [h2, ← g2]; exact hc)).1 hm, g6 c hc]

/-- **C112** (refusals): data with variances and binned data are refused, as are dims that do not exist or are named twice. -/
theorem C112_refused (F : Func V W U) (x : PArr V U) (dim : Option (List Dim)) :
    (x.data.variances = true → reduceVar F x.data dim = .error .variances ∧ reduceArr F x dim = .error .variances) ∧
    (x.data.variances = false → x.data.binned = true → reduceVar F x.data dim = .error .dtype ∧ reduceArr F x dim = .error .dtype) ∧
    (¬ ValidDims x.data.arr.dims (asked x.data.arr.dims dim) → (∃ e, reduceVar F x.data dim = .error e) ∧ ∃ e, reduceArr F x dim = .error e) := by
  have ha : asked x.data.arr.dims dim = concreteDims x.data.arr.dims dim := by cases dim <;> rfl
  rw [ha]
  refine ⟨fun h => ?_, fun h h' => ?_, fun h => ?_⟩
  · simp [reduceVar, reduceArr, expectPlain, h, bind, Except.bind]
  · simp [reduceVar, reduceArr, expectPlain, h, h', bind, Except.bind]
  · unfold reduceVar reduceArr
    simp only [bind, Except.bind]
    cases h0 : expectPlain x.data with
    | error e => exact ⟨⟨e, rfl⟩, ⟨e, rfl⟩⟩
    | ok u =>
      simp only
      cases hax : dimsToAxis (labels x.data.arr.dims) (concreteDims x.data.arr.dims dim) with
      | error e => exact ⟨⟨e, rfl⟩, ⟨e, rfl⟩⟩
      | ok ax =>
        obtain ⟨h1, rfl⟩ := dimsToAxis_ok.1 hax
        have hdup : ¬ ((concreteDims x.data.arr.dims dim).map (fun d => (labels x.data.arr.dims).idxOf d)).Nodup := by
          rw [axis_nodup h1]
          exact fun hc => h ⟨hc, h1⟩
        simp only
        refine ⟨⟨.invalidArgument, by rw [npReduce_dup hdup]⟩, ?_⟩
        have : ∃ e, arrayValues F x (concreteDims x.data.arr.dims dim) ((concreteDims x.data.arr.dims dim).map (fun d => (labels x.data.arr.dims).idxOf d)) =
            .error e := by
          unfold arrayValues
          simp only [bind, Except.bind]
          cases NpRed.irreducibleMask x.data.arr.dims x.masks (concreteDims x.data.arr.dims dim) with
          | error e => exact ⟨e, rfl⟩
          | ok m =>
            cases m with
            | none => exact ⟨_, npReduce_dup hdup _ _⟩
            | some m =>
              simp only
              cases broadcast m.arr x.data.arr.dims with
              | error e => exact ⟨e, rfl⟩
              | ok b =>
                simp only
                split
                · exact ⟨_, rfl⟩
                · exact ⟨_, npReduce_dup hdup _ _⟩
        obtain ⟨e, he⟩ := this
        rw [he]
        exact ⟨e, rfl⟩

example : ¬ ValidDims c112Arr.data.arr.dims [2, 2] ∧ ¬ ValidDims c112Arr.data.arr.dims [4] := by
  constructor
  · exact fun h => absurd h.1 (by decide)
  · exact fun h => absurd (h.2 4 (by simp)) (by decide)

/-- **C112** (functions that ignore NaN): with a mask depending on a reduced dim they are refused. -/
theorem C112_refused_masked (F : Func V W U) (hF : F.masked = false) (x : PArr V U) (hx : x.Ok) (hp : C112Plain x.data) (dim : Option (List Dim))
    (hv : ValidDims x.data.arr.dims (asked x.data.arr.dims dim)) (p : Dim × MaskVar) (hpm : p ∈ x.masks) (hd : Depends p.2.arr.dims (asked x.data.arr.dims dim)) :
    reduceArr F x dim = .error .invalidArgument := by
  have ha : asked x.data.arr.dims dim = concreteDims x.data.arr.dims dim := by cases dim <;> rfl
  rw [ha] at hv hd
  have hD := hx.masked.data
  obtain ⟨m, hm1, hm2, hm3⟩ := irreducible_ok hD.wf (masks := x.masks) hx.masked.masks (concreteDims x.data.arr.dims dim)
  cases m with
  | none => exact absurd hd (hm2.1 rfl p hpm)
  | some m =>
    obtain ⟨m1, m2, m3⟩ := hm3 m rfl
    have hb : broadcast m.arr x.data.arr.dims = .ok ⟨x.data.arr.dims, m.arr.val⟩ := by
      unfold broadcast
      rw [if_pos ((includes_iff hD.wf.1 m2.1).2 m1)]
    simp only [reduceArr, c112_plain hp, bind, Except.bind, dimsToAxis_ok.2 ⟨hv.2, rfl⟩, arrayValues, hm1, hb, hF, Bool.not_false, if_true]

example : Depends c112Arr.masks[0].2.arr.dims (asked c112Arr.data.arr.dims none) ∧ ValidDims c112Arr.data.arr.dims (asked c112Arr.data.arr.dims none) :=
  ⟨by decide, by decide, by decide⟩

/-- **C112** (sums over several dims): summing over one dim after the other gives the sum of all elements with the same remaining coordinates that are
not masked by a mask depending on any of the dims; the other masks are kept. -/
theorem C112_sum [AddCommMonoid V] (x : MaskedArr V) (hx : x.Ok) (ds : List Dim) (hv : ValidDims x.data.dims ds) :
    ∃ r, sumDims x ds = .ok r ∧ r.data.dims = keptDims x.data.dims ds ∧ (∀ c, r.data.val c = (contributing x.data x.masks ds c).sum) ∧
      r.masks.map (fun p => (p.1, p.2.copy)) = (x.masks.filter (fun p => decide (¬ Depends p.2.arr.dims ds))).map (fun p => (p.1, p.2.copy)) := by
  obtain ⟨r, h1, h2, h3, h4⟩ := sumDims_ok ds x hx hv
  refine ⟨r, h1, h2, h3, h4.trans (congrArg _ ?_)⟩
  unfold reducedItems
  refine List.filter_congr (fun p _ => ?_)
  rw [depends_iff, Bool.eq_iff_iff]
  simp

example : (⟨c112Arr.data.arr, c112Arr.masks⟩ : MaskedArr Int).Ok ∧ ValidDims c112Arr.data.arr.dims [3, 2] ∧
    (contributing c112Arr.data.arr c112Arr.masks [3, 2] (fun _ => 0)).sum = 24 :=
  ⟨c112Arr_ok.masked, ⟨by decide, by decide⟩, by decide⟩

/-- **C112** (order of the dims): a sum over several dims does not depend on the order in which they are named. -/
theorem C112_sum_order [AddCommMonoid V] (x : MaskedArr V) (hx : x.Ok) (ds es : List Dim) (h : ds.Perm es) (hv : ValidDims x.data.dims ds) :
    ∃ r s, sumDims x ds = .ok r ∧ sumDims x es = .ok s ∧ r.data = s.data := by
  obtain ⟨r, r1, r2, r3, -⟩ := sumDims_ok ds x hx hv
  obtain ⟨s, s1, s2, s3, -⟩ := sumDims_ok es x hx ⟨h.nodup_iff.1 hv.1, fun d hd => hv.2 d (h.mem_iff.2 hd)⟩
  refine ⟨r, s, r1, s1, ?_⟩
  have e1 : keptDims x.data.dims ds = keptDims x.data.dims es := by
    unfold keptDims; simp only [h.mem_iff]
  have e2 : redDims x.data.dims ds = redDims x.data.dims es := by
    unfold redDims; simp only [h.mem_iff]
  have e3 : ∀ c, maskedAt x.masks ds c = maskedAt x.masks es c := by
    intro c
    have hd : ∀ d : Dims, Depends d ds ↔ Depends d es := fun d => by unfold Depends; simp only [h.mem_iff]
    unfold maskedAt
    simp only [hd]
  have e4 : r.data.val = s.data.val := by
    funext c
    rw [r3, s3]
    unfold contributing
    simp only [e2, e3]
  cases hr : r.data; cases hs : s.data
  rw [hr] at r2 e4; rw [hs] at s2 e4
  simp only at r2 s2 e4
  rw [r2, s2, e1, e4]

/-- **C112** (order of the dims): nor do the reductions of variables. -/
theorem C112_order (F : Func V W U) (x : PVar V U) (ds es : List Dim) (h : ds.Perm es) (hx : x.arr.Ok) (hp : C112Plain x) (hv : ValidDims x.arr.dims ds) :
    ∃ r s, reduceVar F x (some ds) = .ok r ∧ reduceVar F x (some es) = .ok s ∧ r.arr.dims = s.arr.dims ∧ r.unit = s.unit ∧
      ∀ c, InDims r.arr.dims c → r.arr.val c = s.arr.val c := by
  obtain ⟨r, r1, r2, r3, -, -, r4⟩ := C112_variable F x hx hp (some ds) hv
  obtain ⟨s, s1, s2, s3, -, -, s4⟩ := C112_variable F x hx hp (some es) ⟨h.nodup_iff.1 hv.1, fun d hd => hv.2 d (h.mem_iff.2 hd)⟩
  have e1 : keptDims x.arr.dims ds = keptDims x.arr.dims es := by
    unfold keptDims; simp only [h.mem_iff]
  have e2 : redDims x.arr.dims ds = redDims x.arr.dims es := by
    unfold redDims; simp only [h.mem_iff]
  have hd : r.arr.dims = s.arr.dims := by rw [r2, s2]; exact e1
  refine ⟨r, s, r1, s1, hd, by rw [r3, s3], fun c hc => ?_⟩
  rw [r4 c hc, s4 c (by rw [← hd]; exact hc)]
  exact congrArg F.func (congrArg (List.map _) (congrArg (fun d => over d c) e2))

example : ([2, 3] : List Dim).Perm [3, 2] ∧ ValidDims c112Arr.data.arr.dims [2, 3] := ⟨by decide, by decide, by decide⟩

/-- `var` with `ddof=0` (`reduction.py` 338-346) in exact arithmetic: NaN (`none`) without elements. The unit is the exponent of a base unit. In the data array of a masked result,
NumPy leaves zero. -/
def c112Var : Func Rat (Option Rat) Nat where
  func l := if l.length = 0 then none else some ((l.map (fun x => (x - l.sum / l.length) * (x - l.sum / l.length))).sum / l.length)
  unitFunc u := 2 * u
  masked := true
  enough n := decide (0 < n)
  fill _ := some 0

/-- Two measurements in metres, with or without mask. -/
def c112Data (masks : List (Dim × MaskVar)) : PArr Rat Nat :=
  { data := { arr := ⟨[(2, 2)], fun c => if c 2 = 0 then 1 else 3⟩, unit := some 1 }, coords := [], attrs := [], masks }

/-- **C112** fails for units: the variance of a data array in metres is in metres, that of its data in square metres, with the same values. -/
theorem C112_wrong_unit : ∃ r v, reduceArr c112Var (c112Data []) none = .ok r ∧ reduceVar c112Var (c112Data []).data none = .ok v ∧
    r.data.unit = some 1 ∧ v.unit = some 2 ∧ r.data.arr.val (fun _ => 0) = some 1 ∧ v.arr.val (fun _ => 0) = some 1 :=
  ⟨_, _, rfl, rfl, rfl, rfl, by decide +kernel, by decide +kernel⟩

/-- **C112** fails for units in general: whenever the unit of the function is not that of its argument, the unit of the result for a data array is wrong. -/
theorem C112_wrong_unit_always (F : Func V W U) (x : PArr V U) (hx : x.Ok) (hp : C112Plain x.data) (dim : Option (List Dim))
    (hv : ValidDims x.data.arr.dims (asked x.data.arr.dims dim)) (hm : ∀ p ∈ x.masks, ¬ Depends p.2.arr.dims (asked x.data.arr.dims dim))
    (hu : x.data.unit.map F.unitFunc ≠ x.data.unit) :
    ∃ r v, reduceArr F x dim = .ok r ∧ reduceVar F x.data dim = .ok v ∧ r.data.unit ≠ v.unit := by
  obtain ⟨r, v, h1, h2, -, -, h5⟩ := C112_agree_partial F x hx hp dim hv hm
  exact ⟨r, v, h1, h2, fun h => hu (h5.1 h).symm⟩

example : (c112Data []).data.unit.map c112Var.unitFunc ≠ (c112Data []).data.unit := by decide

/-- **C112** fails where everything is masked: the variance of no elements is zero, not NaN, and the element of the result is not masked. -/
theorem C112_wrong_masked : ∃ r, reduceArr c112Var (c112Data [(5, { arr := ⟨[(2, 2)], fun _ => true⟩ })]) none = .ok r ∧
    contributing (c112Data []).data.arr [(5, { arr := ⟨[(2, 2)], fun _ => true⟩ })] [2] (fun _ => 0) = [] ∧ c112Var.func [] = none ∧
    r.data.arr.val (fun _ => 0) = some 0 ∧ r.masks.length = 0 :=
  ⟨_, rfl, by decide, by decide, by decide, by decide⟩

end Scipp.Props
