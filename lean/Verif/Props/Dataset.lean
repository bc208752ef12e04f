import Verif.Lemmas.Dataset
/-! C53: consistency of datasets. -/
namespace Scipp.Props
open Sizes

/-- **C53, one operation.** Every operation on a consistent dataset leaves a consistent dataset, also if it throws, and if it throws, the dataset is
unchanged. A default-constructed dataset must be given an item before its coords are modified through `coords()` (see `C53_wrong_for_default`). -/
theorem C53_operation {eq eqn : Entry → Entry → Bool} {d : Dset} (hd : d.Ok) (op : DsetOp) (hv : op.Valid)
    (hdef : d.valid = false → ∀ k e, op ≠ .coordsSet k e) :
    (op.apply eq eqn d).1.Ok ∧ ((op.apply eq eqn d).2 ≠ none → (op.apply eq eqn d).1 = d) := by
  have hon : ∀ (r : Except Err SizedDict), (∀ c, r = .ok c → c.Ok ∧ c.sizes = d.coords.sizes ∧ c.readonly = d.coords.readonly ∧
      (d.valid = false → c.items = [])) → (d.onCoords r).1.Ok ∧ ((d.onCoords r).2 ≠ none → (d.onCoords r).1 = d) := by
    intro r hr
    cases r with
    | error err => exact ⟨hd, fun _ => rfl⟩
    | ok c =>
      obtain ⟨h1, h2, h3, h4⟩ := hr c rfl
      exact ⟨hd.withCoords h1 h2 h3 h4, fun hn => absurd rfl hn⟩
  cases op with
  | setCoord k e => exact setCoord_Ok hd k hv
  | setData n x keep => exact setData_Ok hd n keep hv
  | setDataArray n a => exact setDataArray_Ok hd n hv
  | setDataInit n x keep =>
    show (d.setDataInit n x keep).1.Ok ∧ _
    simp only [DsetOp.apply]
    unfold Dset.setDataInit
    rcases initSizes_cases hd (dims := x.dims) (show x.view.WF from hv).1 with ⟨-, h⟩ | ⟨hi, h, hok⟩
    · rw [h]; exact setData_Ok hd n keep hv
    · rw [h]
      dsimp only
      refine ⟨(setData_Ok hok n keep hv).1, fun hn => absurd ?_ hn⟩
      obtain ⟨-, -, h3, h4⟩ := hd.invalid hi
      unfold Dset.setData
      rw [(usable_iff { d with coords := { d.coords with sizes := x.dims }, valid := true }).2 ⟨h4, rfl⟩]
      dsimp only
      rw [if_neg (by rw [(eqMap_iff (show x.view.WF from hv).1 (show x.view.WF from hv).1).2 SameSizes.rfl']; decide)]
      unfold Dset.newItem
      dsimp only
      rw [h3]
      rfl
  | setDataArrayInit n a =>
    show (d.setDataArrayInit eq eqn n a).1.Ok ∧ _
    simp only [DsetOp.apply]
    unfold Dset.setDataArrayInit
    have ha : a.Ok := hv
    rcases initSizes_cases hd (dims := a.data.dims) ha.data.1 with ⟨-, h⟩ | ⟨hi, h, hok⟩
    · rw [h]; exact setDataArray_Ok hd n hv
    · rw [h]
      dsimp only
      refine ⟨(setDataArray_Ok hok n hv).1, fun hn => absurd ?_ hn⟩
      obtain ⟨-, h2, h3, h4⟩ := hd.invalid hi
      rcases setDataArray_cases (eq := eq) (eqn := eqn) hok n ha with ⟨-, h⟩ | ⟨-, ⟨-, h⟩ | ⟨-, -, -, h⟩⟩
      · rw [h]
      · exfalso
        rcases h with h | h | h
        · obtain ⟨skip, hs⟩ := (coordsToSkip_error (eqn := eqn) (dst := d.coords.items) (new := a.coords.items)).2
            (fun p _ cur hc => by rw [h2] at hc; cases hc)
          exact h skip hs
        · exact h ((usable_iff _).2 ⟨h4, rfl⟩)
        · exact h SameSizes.rfl'
      · rw [h]
  | erase n =>
    show (d.erase n).1.Ok ∧ ((d.erase n).2 ≠ none → (d.erase n).1 = d)
    unfold Dset.erase
    split
    · exact ⟨hd, fun _ => rfl⟩
    · split
      · exact ⟨hd, fun _ => rfl⟩
      · exact ⟨⟨hd.coords, hd.names.sublist ((eraseEntry_sublist _ _).map _), fun p hp => hd.items p ((eraseEntry_sublist _ _).subset hp),
          hd.flag, fun h => by
            obtain ⟨h1, h2, h3, h4⟩ := hd.invalid h
            exact ⟨h1, h2, by show eraseEntry d.items n = []; rw [h3]; rfl, h4⟩⟩, fun hn => absurd rfl hn⟩
  | clear =>
    show d.clear.1.Ok ∧ (d.clear.2 ≠ none → d.clear.1 = d)
    unfold Dset.clear
    split
    · exact ⟨hd, fun _ => rfl⟩
    · exact ⟨⟨hd.coords, List.nodup_nil, fun p hp => (nomatch hp), hd.flag, fun h =>
        ⟨(hd.invalid h).1, (hd.invalid h).2.1, rfl, (hd.invalid h).2.2.2⟩⟩, fun hn => absurd rfl hn⟩
  | coordsSet k e =>
    refine hon _ (fun c hc => ?_)
    obtain ⟨h1, h2, h3⟩ := set_Ok hd.coords hv hc
    exact ⟨h1, h2, h3, fun h => absurd rfl (hdef h k e)⟩
  | coordsErase k =>
    refine hon _ (fun c hc => ?_)
    have hk := erase_Ok hd.coords hc
    unfold SizedDict.erase at hc
    split at hc
    · cases hc
    · cases hl : lookupEntry d.coords.items k with
      | none => rw [hl] at hc; cases hc
      | some e =>
        simp only [hl, Except.ok.injEq] at hc
        subst hc
        refine ⟨hk, rfl, rfl, fun h => ?_⟩
        rw [(hd.invalid h).2.1] at hl
        cases hl
  | coordsSetAligned k a =>
    refine hon _ (fun c hc => ?_)
    obtain ⟨h1, h2, h3⟩ := setAligned_Ok hd.coords hc
    refine ⟨h1, h2, h3, fun h => ?_⟩
    unfold SizedDict.setAligned at hc
    rw [(hd.invalid h).2.1] at hc
    split at hc <;> cases hc

/-- An operation does not make a valid dataset invalid. -/
theorem C53_stays_valid {eq eqn : Entry → Entry → Bool} {d : Dset} (hd : d.Ok) (hv : d.valid = true) (op : DsetOp) (ho : op.Valid) :
    (op.apply eq eqn d).1.valid = true := by
  have hon : ∀ r, (d.onCoords r).1.valid = true := by intro r; cases r <;> exact hv
  have h1 : ∀ n x keep, (d.setData n x keep).1.valid = true := by
    intro n x keep
    rcases setData_cases d n x keep with ⟨err, h⟩ | ⟨it, _, _, _, h⟩ <;> rw [h] <;> exact hv
  have h2 : ∀ n a, a.Ok → (d.setDataArray eq eqn n a).1.valid = true := by
    intro n a ha
    rcases setDataArray_cases (eq := eq) (eqn := eqn) hd n ha with ⟨-, h⟩ | ⟨-, ⟨⟨err, h⟩, -⟩ | ⟨-, hu, hs, h⟩⟩ <;> rw [h] <;> exact hv
  have h3 : ∀ dims, d.initSizes dims = (d, none) := by intro dims; unfold Dset.initSizes; rw [hv]; rfl
  cases op with
  | setCoord k e =>
    show (d.setCoord k e).1.valid = true
    rcases setCoord_cases d k e with ⟨err, h⟩ | ⟨c, _, _, h⟩ <;> rw [h] <;> exact hv
  | setData n x keep => exact h1 n x keep
  | setDataArray n a => exact h2 n a ho
  | setDataInit n x keep =>
    show (d.setDataInit n x keep).1.valid = true
    unfold Dset.setDataInit
    rw [h3]
    exact h1 n x keep
  | setDataArrayInit n a =>
    show (d.setDataArrayInit eq eqn n a).1.valid = true
    unfold Dset.setDataArrayInit
    rw [h3]
    exact h2 n a ho
  | erase n =>
    show (d.erase n).1.valid = true
    unfold Dset.erase
    split
    · exact hv
    · split <;> exact hv
  | clear =>
    show d.clear.1.valid = true
    unfold Dset.clear
    split <;> exact hv
  | coordsSet k e => exact hon _
  | coordsErase k => exact hon _
  | coordsSetAligned k a => exact hon _

/-- **C53, histories.** After any sequence of operations, some of which may have thrown, the dataset is consistent: every item has the dims of
the dataset, and coords, masks and attrs fit. -/
theorem C53_history {eq eqn : Entry → Entry → Bool} : ∀ (ops : List DsetOp) {d : Dset}, d.Ok → d.valid = true → (∀ op ∈ ops, op.Valid) →
    (DsetOp.run eq eqn d ops).Ok
  | [], _, hd, _, _ => hd
  | op :: ops, d, hd, hv, ho => by
    have h1 := (C53_operation (eq := eq) (eqn := eqn) hd op (ho op (by simp)) (fun h => by rw [hv] at h; cases h)).1
    exact C53_history ops h1 (C53_stays_valid hd hv op (ho op (by simp))) (fun o h => ho o (by simp [h]))

/-- `Dataset()` (`dataset.cpp` 44), and what the constructors start from (`dataset.h` 63-88, `dataset.cpp` 50-53). -/
theorem C53_start (dims : Dims) (hw : WF dims) : Dset.Ok ⟨⟨[], [], false⟩, [], false, false⟩ ∧ Dset.Ok ⟨⟨dims, [], false⟩, [], false, true⟩ :=
  ⟨⟨⟨⟨List.nodup_nil, fun p hp => nomatch hp⟩, List.nodup_nil, fun p hp => nomatch hp⟩, List.nodup_nil, fun p hp => (nomatch hp), fun _ => rfl,
    fun _ => ⟨rfl, rfl, rfl, rfl⟩⟩,
   ⟨⟨hw, List.nodup_nil, fun p hp => nomatch hp⟩, List.nodup_nil, fun p hp => (nomatch hp), fun _ => rfl, fun h => (nomatch h)⟩⟩

/-- **C53, conflicts.** Inserting a data array that has a coord of other values than the coord of the dataset, with the same alignment flag,
throws and leaves the dataset as it was. -/
theorem C53_conflict {eq eqn : Entry → Entry → Bool} (hc : Comparisons eq eqn) {d : Dset} (hd : d.Ok) (name : Dim) {a : DArray} (ha : a.Ok)
    {k : Dim} (hk : Conflict eqn d a k) : d.setDataArray eq eqn name a = (d, some .dataset) := by
  have hself := selfAssign_conflict hc hd name ha hk
  unfold Dset.setDataArray
  rw [hself]
  dsimp only
  cases hs : coordsToSkip eqn d.coords.items a.coords.items with
  | error err => rw [coordsToSkip_err hs]
  | ok skip =>
    obtain ⟨x, y, h1, h2, h3, h4⟩ := hk
    have := coordsToSkip_error.1 ⟨skip, hs⟩ _ (lookup_mem h2) x h1 h3
    rw [h4] at this
    cases this

/-- **C53, success.** Without a conflict, a data array that has the dims of the dataset is inserted: the item has its data, masks and attrs, other
items stay, coords of the dataset stay, and coords that the dataset does not have are those of the data array. Otherwise the call throws, unless it
is an assignment of the item to itself. -/
theorem C53_insert {eq eqn : Entry → Entry → Bool} (hc : Comparisons eq eqn) {d : Dset} (hd : d.Ok) (name : Dim) {a : DArray} (ha : a.Ok)
    (hself : d.selfAssign eq name a = .ok false) :
    ((d.setDataArray eq eqn name a).2 = none ↔
      d.readonly = false ∧ d.valid = true ∧ SameSizes a.data.dims d.coords.sizes ∧ ∀ k, ¬ Conflict eqn d a k) ∧
    ((d.setDataArray eq eqn name a).2 = none →
      (∀ n, lookupEntry (d.setDataArray eq eqn name a).1.items n =
        if n = name then some ⟨a.data, a.masks, a.attrs⟩ else lookupEntry d.items n) ∧
      (∀ k, lookupEntry (d.setDataArray eq eqn name a).1.coords.items k =
        match lookupEntry d.coords.items k with
        | some e => some e
        | none => lookupEntry a.coords.items k)) := by
  rcases setDataArray_cases (eq := eq) (eqn := eqn) hd name ha with ⟨h, -⟩ | ⟨-, ⟨⟨err, h⟩, hr⟩ | ⟨⟨skip, hs⟩, hu, hss, h⟩⟩
  · rw [hself] at h; cases h
  · rw [h]
    refine ⟨⟨fun h => (nomatch h), fun ⟨k1, k2, k3, k4⟩ => ?_⟩, fun h => (nomatch h)⟩
    exfalso
    rcases hr with hr | hr | hr
    · obtain ⟨skip, hs⟩ := (coordsToSkip_error (eqn := eqn) (dst := d.coords.items) (new := a.coords.items)).2 (fun p hp cur hcur hal => by
        cases he : eqn p.2 cur with
        | true => rfl
        | false => exact absurd ⟨cur, p.2, hcur, lookup_of_mem ha.coords.1.2.1 hp, hal, he⟩ (k4 p.1))
      exact hr skip hs
    · exact hr ((usable_iff d).2 ⟨k1, k2⟩)
    · exact hr k3
  · have hu' := (usable_iff d).1 hu
    refine ⟨⟨fun _ => ⟨hu'.1, hu'.2, hss, fun k hk => ?_⟩, fun _ => by rw [h]⟩, fun _ => ?_⟩
    · have := C53_conflict hc hd name ha hk
      rw [h] at this
      exact absurd (congrArg Prod.snd this) (by simp)
    · rw [h]
      refine ⟨fun n => ?_, fun k => ?_⟩
      · show lookupEntry (insertEntry d.items name _) n = _
        rw [lookup_insert]
      · exact lookup_addMissing d.coords a.coords.items k ha.coords.1.2.1

/-- **C53, access.** An item of a consistent dataset is a well-formed data array. It has the data, masks and attrs that were set, and those coords
of the dataset that have only dims of the dataset. -/
theorem C53_item {d : Dset} (hd : d.Ok) {name : Dim} {it : DItem} (h : lookupEntry d.items name = some it) :
    ∃ a, d.get name = .ok a ∧ a.Ok ∧ a.data = it.data ∧ a.masks = it.masks ∧ a.attrs = it.attrs ∧
      ∀ k, lookupEntry a.coords.items k =
        match lookupEntry d.coords.items k with
        | none => none
        | some e => if ∀ x ∈ labels e.dims, x ∈ labels d.coords.sizes then some { e with view := e.view.asConst } else none := by
  have hf := hd.items _ (lookup_mem h)
  refine ⟨_, get_eq hd h, ⟨hf.data, ⟨⟨hf.data.1, ?_, fun p hp => ?_⟩, SameSizes.rfl'⟩, hf.masks, hf.attrs⟩, rfl, rfl, rfl, fun k => ?_⟩
  · dsimp only
    rw [List.map_map]
    exact hd.coords.2.1.sublist (List.Sublist.map _ List.filter_sublist)
  · obtain ⟨q, hq, rfl⟩ := List.mem_map.1 hp
    obtain ⟨h1, h2, h3⟩ := hd.coords.same hf.dims.symm (List.mem_filter.1 hq).1
    exact ⟨h1, h2, h3⟩
  · rw [show lookupEntry _ k = _ from lookup_map_filter (f := fun e => { e with view := e.view.asConst }) hd.coords.2.1 k]
    cases lookupEntry d.coords.items k with
    | none => rfl
    | some e =>
      have : itemAppliesTo it.data.dims (k, e) = true ↔ ∀ x ∈ labels e.dims, x ∈ labels d.coords.sizes := by
        unfold itemAppliesTo
        rw [List.all_eq_true]
        refine forall_congr' fun x => imp_congr Iff.rfl ?_
        rw [contains_iff, hf.dims.labels]
      dsimp only
      by_cases hp : itemAppliesTo it.data.dims (k, e) = true
      · rw [if_pos hp, if_pos (this.1 hp)]
      · rw [if_neg hp, if_neg (fun h => hp (this.2 h))]

/-! ### Examples and disagreements -/

/-- A variable with one dimension. -/
def dsVar (obj : Nat) (d : Dim) (n : Int) (aligned : Bool := true) : Entry := ⟨⟨[(d, n)], [1], 0, false⟩, obj, aligned, false⟩

/-- Variables with the same object have the same values. -/
def dsEq (x y : Entry) : Bool := x.obj == y.obj

/-- A dataset of dims {2: 3} with an aligned coord of bin edges and an unaligned coord. -/
def dsA : Dset := ⟨⟨[(2, 3)], [(2, dsVar 10 2 4), (3, dsVar 11 2 3 false)], false⟩, [], false, true⟩

/-- A data array with the same dims and a given coord. -/
def dsArr (k : Dim) (e : Entry) : DArray := ⟨dsVar 20 2 3, ⟨[(2, 3)], [(k, e)], false⟩, ⟨[(2, 3)], [(9, dsVar 21 2 3)], false⟩, ⟨[(2, 3)], [], false⟩⟩

theorem dsVar_wf (obj : Nat) (d : Dim) (a : Bool) {n : Int} (hn : 0 ≤ n) : (dsVar obj d n a).view.WF :=
  ⟨⟨by simp [dsVar, labels], fun p hp => by simp only [dsVar, List.mem_singleton] at hp; subst hp; exact hn⟩, rfl,
    fun s hs => by simp only [dsVar, List.mem_singleton] at hs; subst hs; decide⟩

theorem dsFits (d : Dim) {n m : Int} (h : m = n ∨ m = n + 1) : Fits [(d, n)] [(d, m)] :=
  ⟨d, fun x k hx hne => absurd (by simp at hx; exact hx.1) hne, fun k hk => by
    simp only [List.mem_singleton, Prod.mk.injEq] at hk
    obtain ⟨-, rfl⟩ := hk
    rcases h with rfl | rfl
    · exact .inl (by simp)
    · exact .inr (.inl ⟨n, by simp, rfl⟩)⟩

theorem dsDict (d k : Dim) {n m : Int} (obj : Nat) (a : Bool) (hn : 0 ≤ n) (h : m = n ∨ m = n + 1) :
    (⟨[(d, n)], [(k, dsVar obj d m a)], false⟩ : SizedDict).Ok :=
  ⟨⟨by simp [labels], fun p hp => by simp only [List.mem_singleton] at hp; subst hp; exact hn⟩, by simp, fun p hp => by
    simp only [List.mem_singleton] at hp
    subst hp
    exact ⟨dsVar_wf _ _ _ (by omega), rfl, dsFits d h⟩⟩

theorem dsA_ok : dsA.Ok :=
  ⟨⟨⟨by decide, fun p hp => by simp only [dsA, List.mem_singleton] at hp; subst hp; decide⟩, by decide, fun p hp => by
      rcases List.mem_cons.1 hp with rfl | hp
      · exact ⟨dsVar_wf _ _ _ (by decide), rfl, dsFits 2 (.inr rfl)⟩
      · simp only [List.mem_singleton] at hp
        subst hp
        exact ⟨dsVar_wf _ _ _ (by decide), rfl, dsFits 2 (.inl rfl)⟩⟩,
    List.nodup_nil, fun p hp => (nomatch hp), fun _ => rfl, fun h => (nomatch h)⟩

theorem dsArr_ok (k : Dim) (obj : Nat) (m : Int) (a : Bool) (h : m = 3 ∨ m = 3 + 1) : (dsArr k (dsVar obj 2 m a)).Ok :=
  ⟨dsVar_wf _ _ _ (by decide), ⟨dsDict 2 k obj a (by decide) h, SameSizes.rfl'⟩, ⟨dsDict 2 9 21 true (by decide) (.inl rfl), SameSizes.rfl'⟩,
    ⟨⟨⟨by simp [dsArr, labels], by simp [dsArr]⟩, by simp [dsArr], by simp [dsArr]⟩, SameSizes.rfl'⟩⟩

theorem dsComparisons : Comparisons dsEq dsEq := ⟨fun _ _ h => h, fun x y => by simp [dsEq, Bool.beq_comm], fun _ _ => rfl⟩

/-- A conflict: other edges. -/
example : Conflict dsEq dsA (dsArr 2 (dsVar 12 2 4)) 2 := ⟨dsVar 10 2 4, dsVar 12 2 4, rfl, rfl, rfl, rfl⟩
example : dsA.setDataArray dsEq dsEq 7 (dsArr 2 (dsVar 12 2 4)) = (dsA, some .dataset) :=
  C53_conflict (k := 2) dsComparisons dsA_ok 7 (dsArr_ok 2 12 4 true (.inr rfl)) ⟨dsVar 10 2 4, dsVar 12 2 4, rfl, rfl, rfl, rfl⟩
/-- No conflict: a new coord is added. -/
example : dsA.selfAssign dsEq 7 (dsArr 4 (dsVar 12 2 3)) = .ok false := rfl
example : dsA.setDataArray dsEq dsEq 7 (dsArr 4 (dsVar 12 2 3)) =
    (⟨⟨[(2, 3)], [(2, dsVar 10 2 4), (3, dsVar 11 2 3 false), (4, dsVar 12 2 3)], false⟩,
      [(7, ⟨dsVar 20 2 3, ⟨[(2, 3)], [(9, dsVar 21 2 3)], false⟩, ⟨[(2, 3)], [], false⟩⟩)], false, true⟩, none) := rfl
/-- Assigning the item to itself does nothing. -/
example : ((dsA.setDataArray dsEq dsEq 7 (dsArr 4 (dsVar 12 2 3))).1.setDataArray dsEq dsEq 7
    ⟨dsVar 20 2 3, ⟨[(2, 3)], [(2, dsVar 10 2 4), (3, dsVar 11 2 3 false), (4, dsVar 12 2 3)], false⟩,
      ⟨[(2, 3)], [(9, dsVar 21 2 3)], false⟩, ⟨[(2, 3)], [], false⟩⟩).2 = none := rfl
/-- A history with operations that fail: wrong dims, erasing what is not there, conflicting coord. -/
example : DsetOp.run dsEq dsEq dsA [.setData 5 (dsVar 30 2 4) false, .erase 5, .setDataArray 7 (dsArr 2 (dsVar 12 2 4)),
    .setData 6 (dsVar 31 2 3) true, .coordsSet 8 (dsVar 32 2 5), .coordsErase 3] =
  ⟨⟨[(2, 3)], [(2, dsVar 10 2 4)], false⟩, [(6, ⟨dsVar 31 2 3, ⟨[(2, 3)], [], false⟩, ⟨[(2, 3)], [], false⟩⟩)], false, true⟩ := rfl

/-- **Disagreement.** The comment in `coords_to_skip` says that aligned coords overwrite unaligned ones. An aligned coord of the data array does not
replace an unaligned coord of other values in the dataset: it is dropped without an exception. -/
theorem C53_wrong_for_unaligned :
    ∃ (d : Dset) (a : DArray) (k : Dim) (x y : Entry), d.Ok ∧ a.Ok ∧ lookupEntry d.coords.items k = some x ∧ x.aligned = false ∧
      lookupEntry a.coords.items k = some y ∧ y.aligned = true ∧ dsEq x y = false ∧
      (d.setDataArray dsEq dsEq 7 a).2 = none ∧ lookupEntry (d.setDataArray dsEq dsEq 7 a).1.coords.items k = some x :=
  ⟨dsA, dsArr 3 (dsVar 12 2 3), 3, _, _, dsA_ok, dsArr_ok 3 12 3 true (.inl rfl), rfl, rfl, rfl, rfl, rfl, rfl, rfl⟩

/-- **Disagreement.** A coord given by the two edges of a bin (after slicing out one bin) fits the dataset, but the items of the dataset do not have
it: a data array with such a coord is not what is found after inserting it. -/
theorem C53_item_loses_edges :
    ∃ (d : Dset) (a got : DArray), d.Ok ∧ a.Ok ∧ (d.setDataArray dsEq dsEq 7 a).2 = none ∧ (d.setDataArray dsEq dsEq 7 a).1.get 7 = .ok got ∧
      lookupEntry (d.setDataArray dsEq dsEq 7 a).1.coords.items 5 = some (dsVar 40 5 2) ∧
      lookupEntry a.coords.items 5 = some (dsVar 40 5 2) ∧ lookupEntry got.coords.items 5 = none := by
  refine ⟨dsA, dsArr 5 (dsVar 40 5 2), _, dsA_ok, ?_, rfl, rfl, rfl, rfl, rfl⟩
  refine ⟨dsVar_wf _ _ _ (by decide), ⟨⟨⟨by decide, by decide⟩, by simp [dsArr], fun p hp => ?_⟩, SameSizes.rfl'⟩,
    (dsArr_ok 4 12 3 true (.inl rfl)).masks, (dsArr_ok 4 12 3 true (.inl rfl)).attrs⟩
  simp only [dsArr, List.mem_singleton] at hp
  subst hp
  refine ⟨dsVar_wf _ _ _ (by decide), rfl, 5, fun x k hx hne => ?_, fun k hk => ?_⟩
  · have hx' : (x, k) ∈ [((5 : Dim), (2 : Int))] := hx
    simp only [List.mem_singleton, Prod.mk.injEq] at hx'
    exact absurd hx'.1 hne
  have hk' : ((5 : Dim), k) ∈ [((5 : Dim), (2 : Int))] := hk
  simp only [List.mem_singleton, Prod.mk.injEq] at hk'
  exact .inr (.inr ⟨by decide, hk'.2⟩)

/-- **Disagreement.** A coord that is set in a default-constructed dataset through `coords()` is not checked again when the first item defines the
dims. -/
theorem C53_wrong_for_default :
    ¬ (DsetOp.run dsEq dsEq ⟨⟨[], [], false⟩, [], false, false⟩ [.coordsSet 2 (dsVar 40 2 2), .setDataInit 7 (dsVar 20 2 5) false]).Ok := by
  intro h
  obtain ⟨e, h1, h2⟩ := (h.coords.2.2 (2, dsVar 40 2 2) (by decide)).2.2
  have hs : ∀ p ∈ (DsetOp.run dsEq dsEq ⟨⟨[], [], false⟩, [], false, false⟩
      [.coordsSet 2 (dsVar 40 2 2), .setDataInit 7 (dsVar 20 2 5) false]).coords.sizes, p = (2, 5) := by decide
  by_cases he : (2 : Dim) = e
  · subst he
    rcases h2 2 (by decide) with h | ⟨m, hm, h⟩ | ⟨h, -⟩
    · have := hs _ h; simp at this
    · have := hs _ hm
      simp only [Prod.mk.injEq] at this
      omega
    · exact h (by decide)
  · have := hs _ (h1 2 2 (by decide) he)
    simp at this

example := C53_operation (eq := dsEq) (eqn := dsEq) dsA_ok (.setDataArray 7 (dsArr 4 (dsVar 12 2 3)))
  (dsArr_ok 4 12 3 true (.inl rfl)) (fun h => nomatch h)
example := C53_stays_valid (eq := dsEq) (eqn := dsEq) dsA_ok rfl (.setDataArray 7 (dsArr 4 (dsVar 12 2 3))) (dsArr_ok 4 12 3 true (.inl rfl))
example := C53_history (eq := dsEq) (eqn := dsEq)
  [.setDataArray 7 (dsArr 2 (dsVar 12 2 4)), .setDataArray 7 (dsArr 4 (dsVar 12 2 3)), .coordsErase 3, .erase 7] dsA_ok rfl (by
    simp only [List.mem_cons, List.not_mem_nil, or_false]
    rintro _ (rfl | rfl | rfl | rfl)
    · exact dsArr_ok 2 12 4 true (.inr rfl)
    · exact dsArr_ok 4 12 3 true (.inl rfl)
    · trivial
    · trivial)
example := C53_start [(2, 3), (3, 2)] (by simp [WF, labels])
example := C53_insert (d := dsA) dsComparisons dsA_ok 7 (dsArr_ok 4 12 3 true (.inl rfl)) rfl
example := C53_item (name := 7) (d := (dsA.setDataArray dsEq dsEq 7 (dsArr 4 (dsVar 12 2 3))).1)
  (C53_operation (eq := dsEq) (eqn := dsEq) dsA_ok (.setDataArray 7 (dsArr 4 (dsVar 12 2 3))) (dsArr_ok 4 12 3 true (.inl rfl))
    (fun h => nomatch h)).1 rfl

end Scipp.Props
