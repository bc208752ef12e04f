import Verif.Lemmas.DatasetOps
import Verif.Props.Dataset
/-!
# C79: operations with datasets act on the items

`BinaryOp` is any of the operations `+`, `-`, `*`, `/`. `a.get n` is `a[n]`, the item with the coords of the dataset.
-/
namespace Scipp.Props
open Sizes DatasetOps

/-- Names that are in both datasets, in the order of the second. -/
def common (a b : Dset) : List Dim := (names b).filter fun n => decide (n ∈ names a)

private theorem common_nodup {a b : Dset} (hb : b.Ok) : (common a b).Nodup := hb.names.sublist List.filter_sublist

private theorem mem_common {a b : Dset} {n : Dim} : n ∈ common a b ↔ n ∈ names a ∧ n ∈ names b := by
  unfold common; rw [List.mem_filter, decide_eq_true_eq]; exact and_comm

private theorem datasets_eq (op : BinaryOp) (a b : Dset) :
    op.datasets a b = do
      let d ← fill op.eq op.eqn invalidDset ((common a b).map fun n => (n, do op.arrays (← a.get n) (← b.get n)))
      return orEmpty d := by
  have : (b.items.filter fun p => (lookupEntry a.items p.1).isSome).map
      (fun p => (p.1, (do op.arrays (← a.get p.1) (← b.get p.1) : Except Err DArray))) =
      (common a b).map fun n => (n, do op.arrays (← a.get n) (← b.get n)) := by
    unfold common names
    rw [List.filter_map, List.map_map]
    have hp : ((fun n => decide (n ∈ a.items.map Prod.fst)) ∘ Prod.fst : Dim × DItem → Bool) = fun p => (lookupEntry a.items p.1).isSome := by
      funext p
      simp only [Function.comp_apply]
      cases h : lookupEntry a.items p.1 with
      | none => simpa using lookup_none.1 h
      | some e => simpa using ⟨e, lookup_mem h⟩
    rw [hp]
    rfl
  unfold BinaryOp.datasets
  dsimp only
  rw [this]

private theorem bind_ok {α β : Type} {x : Except Err α} {f : α → Except Err β} {r : β} (h : (x >>= f) = .ok r) : ∃ a, x = .ok a ∧ f a = .ok r := by
  cases x with
  | error e => cases h
  | ok a => exact ⟨a, rfl, h⟩

private theorem datasets_step {op : BinaryOp} (ho : op.Regular) {a b : Dset} (ha : a.Ok) (hb : b.Ok) {n : Dim} (hn : n ∈ common a b) {r : DArray}
    (h : (do op.arrays (← a.get n) (← b.get n) : Except Err DArray) = .ok r) :
    r.Ok ∧ SameSizes r.data.dims (a.coords.sizes ++ b.coords.sizes) ∧ union_ op.eqn (seen a) (seen b) = .ok r.coords.items := by
  obtain ⟨hna, hnb⟩ := mem_common.1 hn
  obtain ⟨x, hx, x1, x2, x3⟩ := get_of_mem ha hna
  obtain ⟨y, hy, y1, y2, y3⟩ := get_of_mem hb hnb
  rw [hx, hy] at h
  obtain ⟨k1, k2, k3⟩ := arrays_ok ho x1 y1 h
  refine ⟨k1, fun p => ?_, by rw [← x2, ← y2]; exact k3⟩
  rw [k2, List.mem_append, x3, y3]

private theorem bind_map {α β : Type} {x : Except Err α} {f : α → β} {a : α} (h : x = .ok a) : (do let d ← x; return f d : Except Err β) = .ok (f a) := by
  subst h; rfl

/-- An operation with two datasets acts on the items with the same name: if the operation succeeds for each of them, the result consists of these results. -/
theorem C79_datasets {op : BinaryOp} (ho : op.Regular) {a b : Dset} (ha : a.Ok) (hb : b.Ok) (r : Dim → DArray)
    (h : ∀ n, n ∈ names a → n ∈ names b → ∃ x y, a.get n = .ok x ∧ b.get n = .ok y ∧ op.arrays x y = .ok (r n)) :
    ∃ d, op.datasets a b = .ok d ∧ ConsistsOf d (common a b) r := by
  obtain ⟨d, k1, k2, -⟩ := loop_ok (eq := op.eq) ho.refl (common_nodup (a := a) hb) (fun n => do op.arrays (← a.get n) (← b.get n))
    (fun n hn r hr => datasets_step ho ha hb hn hr) r (fun n hn => by
      obtain ⟨x, y, h1, h2, h3⟩ := h n (mem_common.1 hn).1 (mem_common.1 hn).2
      rw [h1, h2]; exact h3)
  exact ⟨orEmpty d, by rw [datasets_eq]; exact bind_map k1, k2⟩

/-- The operation throws what the operation for the first of the common items that throws does. -/
theorem C79_datasets_error {op : BinaryOp} (ho : op.Regular) {a b : Dset} (ha : a.Ok) (hb : b.Ok) {before after : List Dim} {bad : Dim} {x y : DArray}
    {err : Err} (hc : common a b = before ++ bad :: after)
    (hok : ∀ n ∈ before, ∃ x y r, a.get n = .ok x ∧ b.get n = .ok y ∧ op.arrays x y = .ok r)
    (hx : a.get bad = .ok x) (hy : b.get bad = .ok y) (hbad : op.arrays x y = .error err) : op.datasets a b = .error err := by
  have := loop_error (eq := op.eq) ho.refl (hc ▸ common_nodup (a := a) hb) (fun n => do op.arrays (← a.get n) (← b.get n))
    (S := a.coords.sizes ++ b.coords.sizes) (u := union_ op.eqn (seen a) (seen b))
    (fun n hn r hr => datasets_step ho ha hb (hc ▸ hn) hr) (fun n hn => by
      obtain ⟨x, y, r, h1, h2, h3⟩ := hok n hn
      exact ⟨r, by rw [h1, h2]; exact h3⟩) (err := err) (by rw [hx, hy]; exact hbad)
  rw [datasets_eq, hc, this]
  rfl

private theorem datasets_all {op : BinaryOp} (ho : op.Regular) {a b d : Dset} (ha : a.Ok) (hb : b.Ok) (h : op.datasets a b = .ok d) :
    ∀ n ∈ common a b, ∃ r x y, a.get n = .ok x ∧ b.get n = .ok y ∧ op.arrays x y = .ok r := by
  intro n hn
  rcases all_or_first (fun n => (do op.arrays (← a.get n) (← b.get n) : Except Err DArray)) (common a b) with k | ⟨l1, bad, l2, err, k1, k2, k3⟩
  · obtain ⟨r, hr⟩ := k n hn
    obtain ⟨x, hx, hr⟩ := bind_ok hr
    obtain ⟨y, hy, hr⟩ := bind_ok hr
    exact ⟨r, x, y, hx, hy, hr⟩
  · have := loop_error (eq := op.eq) ho.refl (k1 ▸ common_nodup (a := a) hb) (fun n => do op.arrays (← a.get n) (← b.get n))
      (S := a.coords.sizes ++ b.coords.sizes) (u := union_ op.eqn (seen a) (seen b)) (fun n hn r hr => datasets_step ho ha hb (k1 ▸ hn) hr) k2 k3
    rw [datasets_eq, k1, this] at h
    cases h

/-- The operation succeeds exactly if it does for every pair of items with the same name. -/
theorem C79_datasets_iff {op : BinaryOp} (ho : op.Regular) {a b : Dset} (ha : a.Ok) (hb : b.Ok) :
    (∃ d, op.datasets a b = .ok d) ↔
      ∀ n, n ∈ names a → n ∈ names b → ∃ x y r, a.get n = .ok x ∧ b.get n = .ok y ∧ op.arrays x y = .ok r := by
  constructor
  · rintro ⟨d, h⟩ n hna hnb
    obtain ⟨r, x, y, k⟩ := datasets_all ho ha hb h n (mem_common.2 ⟨hna, hnb⟩)
    exact ⟨x, y, r, k⟩
  · intro h
    rcases all_or_first (fun n => (do op.arrays (← a.get n) (← b.get n) : Except Err DArray)) (common a b) with k | ⟨l1, bad, l2, err, k1, k2, k3⟩
    · classical
      obtain ⟨d, hd, -⟩ := C79_datasets ho ha hb (fun n => if h' : ∃ r, (do op.arrays (← a.get n) (← b.get n) : Except Err DArray) = .ok r then h'.choose
        else ⟨⟨⟨[], [], 0, false⟩, 0, true, false⟩, ⟨[], [], false⟩, ⟨[], [], false⟩, ⟨[], [], false⟩⟩) (fun n hna hnb => by
          have h' := k n (mem_common.2 ⟨hna, hnb⟩)
          rw [dif_pos h']
          obtain ⟨x, hx, hr⟩ := bind_ok h'.choose_spec
          obtain ⟨y, hy, hr⟩ := bind_ok hr
          exact ⟨x, y, hx, hy, hr⟩)
      exact ⟨d, hd⟩
    · obtain ⟨hna, hnb⟩ := mem_common.1 (k1 ▸ List.mem_append_right l1 (List.mem_cons_self) : bad ∈ common a b)
      obtain ⟨x, y, r, h1, h2, h3⟩ := h bad hna hnb
      rw [h1, h2] at k3
      exact nomatch h3.symm.trans k3

/-- If there is a common item, the coords of the result are the union of the coords of the operands; for what is missing, see `C79_disjoint`. -/
theorem C79_coords_partial {op : BinaryOp} (ho : op.Regular) {a b d : Dset} (ha : a.Ok) (hb : b.Ok) (h : op.datasets a b = .ok d) {n : Dim}
    (hna : n ∈ names a) (hnb : n ∈ names b) (k : Dim) :
    lookupEntry d.coords.items k = mergedCoord op.eqn (visible a k) (visible b k) := by
  have hall := datasets_all ho ha hb h
  have : ∃ r : Dim → DArray, ∀ n ∈ common a b, ∃ x y, a.get n = .ok x ∧ b.get n = .ok y ∧ op.arrays x y = .ok (r n) := by
    classical
    refine ⟨fun n => if h' : ∃ r x y, a.get n = .ok x ∧ b.get n = .ok y ∧ op.arrays x y = .ok r then h'.choose
      else ⟨⟨⟨[], [], 0, false⟩, 0, true, false⟩, ⟨[], [], false⟩, ⟨[], [], false⟩, ⟨[], [], false⟩⟩, fun n hn => ?_⟩
    dsimp only
    rw [dif_pos (hall n hn)]
    exact (hall n hn).choose_spec
  obtain ⟨r, hr⟩ := this
  obtain ⟨d', hd', hc⟩ := C79_datasets ho ha hb r (fun n hna hnb => hr n (mem_common.2 ⟨hna, hnb⟩))
  rw [h] at hd'
  cases hd'
  have hn := mem_common.2 ⟨hna, hnb⟩
  obtain ⟨x, y, hx, hy, hxy⟩ := hr n hn
  obtain ⟨-, -, hu⟩ := datasets_step ho ha hb hn (r := r n) (by rw [hx, hy]; exact hxy)
  rw [hc.coords n hn k, (C36_result op.eqn _ _ _ (seen_nodup ha) (seen_nodup hb) hu).2 k, lookup_seen ha, lookup_seen hb]

/-- If there is a common item, aligned coords with different values are reported. -/
theorem C79_conflict_partial {op : BinaryOp} (ho : op.Regular) {a b : Dset} (ha : a.Ok) (hb : b.Ok) {n k : Dim} {x y : Entry}
    (hna : n ∈ names a) (hnb : n ∈ names b) (hx : visible a k = some x) (hy : visible b k = some y) (hxa : x.aligned = true) (hya : y.aligned = true)
    (hne : op.eqn x y = false) : ∃ err, op.datasets a b = .error err := by
  cases h : op.datasets a b with
  | error e => exact ⟨e, rfl⟩
  | ok d =>
    exfalso
    have hn := mem_common.2 ⟨hna, hnb⟩
    obtain ⟨r, x', y', hx', hy', hr⟩ := datasets_all ho ha hb h n hn
    obtain ⟨-, -, hu⟩ := datasets_step ho ha hb hn (r := r) (by rw [hx', hy']; exact hr)
    rw [← lookup_seen ha] at hx
    rw [← lookup_seen hb] at hy
    obtain ⟨err, he⟩ := (C36_fails_iff op.eqn (seen a) (seen b) (seen_nodup ha) (seen_nodup hb)).2
      ⟨k, x, y, lookup_mem hx, lookup_mem hy, hxa, hya, hne⟩
    rw [hu] at he
    cases he

/-- Disagreement: without common items the result is empty, whatever the coords of the operands are. No conflict is reported, and coords and dims are lost. -/
theorem C79_disjoint (op : BinaryOp) {a b : Dset} (h : ∀ n ∈ names a, n ∉ names b) :
    op.datasets a b = .ok ⟨⟨[], [], false⟩, [], false, true⟩ := by
  have : common a b = [] := by
    unfold common
    rw [List.filter_eq_nil_iff]
    intro n hn
    rw [decide_eq_true_eq]
    exact fun k => h n k hn
  rw [datasets_eq, this]
  rfl

/-- Disagreement: a dataset without items loses its coords and dims by any operation. -/
theorem C79_no_items (op : BinaryOp) {a : Dset} (h : a.items = []) (x : DArray) (v : Entry) :
    op.datasetArray a x = .ok ⟨⟨[], [], false⟩, [], false, true⟩ ∧ op.arrayDataset x a = .ok ⟨⟨[], [], false⟩, [], false, true⟩ ∧
    op.datasetVar a v = .ok ⟨⟨[], [], false⟩, [], false, true⟩ ∧ op.varDataset v a = .ok ⟨⟨[], [], false⟩, [], false, true⟩ := by
  unfold BinaryOp.datasetArray BinaryOp.arrayDataset BinaryOp.datasetVar BinaryOp.varDataset
  rw [h]
  exact ⟨rfl, rfl, rfl, rfl⟩

/-- Disagreement: the coords of the result cannot be modified, other than those of the result for data arrays. -/
theorem C79_readonly_coords {op : BinaryOp} (ho : op.Regular) {a b d : Dset} (ha : a.Ok) (hb : b.Ok) (h : op.datasets a b = .ok d) {k : Dim} {e : Entry}
    (hk : lookupEntry d.coords.items k = some e) : e.view.readonly = true := by
  by_cases hc : common a b = []
  · rw [datasets_eq, hc] at h
    cases h
    cases hk
  · obtain ⟨n, hn⟩ := List.exists_mem_of_ne_nil _ hc
    obtain ⟨hna, hnb⟩ := mem_common.1 hn
    rw [C79_coords_partial ho ha hb h hna hnb] at hk
    have hro : ∀ {d : Dset}, d.Ok → ∀ {e}, visible d k = some e → e.view.readonly = true := fun hd e he => by
      rw [← lookup_seen hd] at he
      exact seen_readonly (lookup_mem he)
    cases hx : visible a k <;> cases hy : visible b k <;> rw [hx, hy] at hk <;> simp only [mergedCoord] at hk
    · cases hk
    · split at hk
      · cases hk; exact hro hb hy
      · cases hk
    · split at hk
      · cases hk; exact hro ha hx
      · cases hk
    · split at hk
      · cases hk; exact hro ha hx
      · split at hk
        · cases hk; exact hro hb hy
        · split at hk
          · cases hk; exact hro hb hy
          · cases hk

/-! ### A dataset and a data array or a variable -/

/-- An operation with a dataset and a data array acts on all items. -/
theorem C79_dataset_array {op : BinaryOp} (ho : op.Regular) {a : Dset} (ha : a.Ok) {b : DArray} (hb : b.Ok) (r : Dim → DArray)
    (h : ∀ n ∈ names a, ∃ x, a.get n = .ok x ∧ op.arrays x b = .ok (r n)) :
    ∃ d, op.datasetArray a b = .ok d ∧ ConsistsOf d (names a) r := by
  obtain ⟨d, k1, k2, -⟩ := loop_ok (eq := op.eq) ho.refl ha.names (fun n => do op.arrays (← a.get n) b) (S := a.coords.sizes ++ b.data.dims)
    (u := union_ op.eqn (seen a) b.coords.items) (fun n hn r hr => by
      obtain ⟨x, hx, x1, x2, x3⟩ := get_of_mem ha hn
      rw [hx] at hr
      obtain ⟨k1, k2, k3⟩ := arrays_ok ho x1 hb hr
      exact ⟨k1, fun p => by rw [k2, List.mem_append, x3], by rw [← x2]; exact k3⟩) r (fun n hn => by
      obtain ⟨x, h1, h2⟩ := h n hn
      rw [h1]; exact h2)
  refine ⟨orEmpty d, ?_, k2⟩
  unfold BinaryOp.datasetArray
  refine bind_map (Eq.trans ?_ k1)
  rw [List.map_map]; rfl

/-- The same with the data array as the first operand. -/
theorem C79_array_dataset {op : BinaryOp} (ho : op.Regular) {a : DArray} (ha : a.Ok) {b : Dset} (hb : b.Ok) (r : Dim → DArray)
    (h : ∀ n ∈ names b, ∃ y, b.get n = .ok y ∧ op.arrays a y = .ok (r n)) :
    ∃ d, op.arrayDataset a b = .ok d ∧ ConsistsOf d (names b) r := by
  obtain ⟨d, k1, k2, -⟩ := loop_ok (eq := op.eq) ho.refl hb.names (fun n => do op.arrays a (← b.get n)) (S := a.data.dims ++ b.coords.sizes)
    (u := union_ op.eqn a.coords.items (seen b)) (fun n hn r hr => by
      obtain ⟨x, hx, x1, x2, x3⟩ := get_of_mem hb hn
      rw [hx] at hr
      obtain ⟨k1, k2, k3⟩ := arrays_ok ho ha x1 hr
      exact ⟨k1, fun p => by rw [k2, List.mem_append, x3], by rw [← x2]; exact k3⟩) r (fun n hn => by
      obtain ⟨x, h1, h2⟩ := h n hn
      rw [h1]; exact h2)
  refine ⟨orEmpty d, ?_, k2⟩
  unfold BinaryOp.arrayDataset
  refine bind_map (Eq.trans ?_ k1)
  rw [List.map_map]; rfl

/-- An operation with a dataset and a variable acts on all items, and coords that apply to the items are kept. -/
theorem C79_dataset_var {op : BinaryOp} (ho : op.Regular) {a : Dset} (ha : a.Ok) (hown : OwnDims a) {v : Entry} (hv : v.view.WF) (r : Dim → DArray)
    (h : ∀ n ∈ names a, ∃ x, a.get n = .ok x ∧ op.arrayVar x v = .ok (r n)) :
    ∃ d, op.datasetVar a v = .ok d ∧ ConsistsOf d (names a) r ∧ (names a ≠ [] → ∀ k, lookupEntry d.coords.items k = visible a k) := by
  have hstep : ∀ n ∈ names a, ∀ r, (do op.arrayVar (← a.get n) v : Except Err DArray) = .ok r →
      r.Ok ∧ SameSizes r.data.dims (a.coords.sizes ++ v.dims) ∧ (.ok (seen a) : Except Err _) = .ok r.coords.items := fun n hn r hr => by
    obtain ⟨x, hx, hr⟩ := bind_ok hr
    unfold BinaryOp.arrayVar at hr
    obtain ⟨z, hz, hr⟩ := bind_ok hr
    obtain ⟨k1, k2, k3⟩ := var_ok ho ha hown hv hx (.inl hz) hr
    exact ⟨k1, k2, by rw [k3]⟩
  obtain ⟨d, k1, k2, -⟩ := loop_ok (eq := op.eq) ho.refl ha.names (fun n => do op.arrayVar (← a.get n) v) hstep r (fun n hn => by
      obtain ⟨x, h1, h2⟩ := h n hn
      rw [h1]; exact h2)
  refine ⟨orEmpty d, ?_, k2, fun hne k => ?_⟩
  · unfold BinaryOp.datasetVar
    refine bind_map (Eq.trans ?_ k1)
    rw [List.map_map]; rfl
  · obtain ⟨n, hn⟩ := List.exists_mem_of_ne_nil _ hne
    obtain ⟨x, h1, h2⟩ := h n hn
    have := (hstep n hn (r n) (by rw [h1]; exact h2)).2.2
    rw [k2.coords n hn, ← Except.ok.inj this, lookup_seen ha]

/-- The same with the variable as the first operand. -/
theorem C79_var_dataset {op : BinaryOp} (ho : op.Regular) {b : Dset} (hb : b.Ok) (hown : OwnDims b) {v : Entry} (hv : v.view.WF) (r : Dim → DArray)
    (h : ∀ n ∈ names b, ∃ y, b.get n = .ok y ∧ op.varArray v y = .ok (r n)) :
    ∃ d, op.varDataset v b = .ok d ∧ ConsistsOf d (names b) r ∧ (names b ≠ [] → ∀ k, lookupEntry d.coords.items k = visible b k) := by
  have hstep : ∀ n ∈ names b, ∀ r, (do op.varArray v (← b.get n) : Except Err DArray) = .ok r →
      r.Ok ∧ SameSizes r.data.dims (b.coords.sizes ++ v.dims) ∧ (.ok (seen b) : Except Err _) = .ok r.coords.items := fun n hn r hr => by
    obtain ⟨x, hx, hr⟩ := bind_ok hr
    unfold BinaryOp.varArray at hr
    obtain ⟨z, hz, hr⟩ := bind_ok hr
    obtain ⟨k1, k2, k3⟩ := var_ok ho hb hown hv hx (.inr hz) hr
    exact ⟨k1, k2, by rw [k3]⟩
  obtain ⟨d, k1, k2, -⟩ := loop_ok (eq := op.eq) ho.refl hb.names (fun n => do op.varArray v (← b.get n)) hstep r (fun n hn => by
      obtain ⟨x, h1, h2⟩ := h n hn
      rw [h1]; exact h2)
  refine ⟨orEmpty d, ?_, k2, fun hne k => ?_⟩
  · unfold BinaryOp.varDataset
    refine bind_map (Eq.trans ?_ k1)
    rw [List.map_map]; rfl
  · obtain ⟨n, hn⟩ := List.exists_mem_of_ne_nil _ hne
    obtain ⟨x, h1, h2⟩ := h n hn
    have := (hstep n hn (r n) (by rw [h1]; exact h2)).2.2
    rw [k2.coords n hn, ← Except.ok.inj this, lookup_seen hb]

/-- The operation for two data arrays: data, coords, masks and attrs of the result. -/
theorem C79_arrays {op : BinaryOp} (ho : op.Regular) {x y r : DArray} (hx : x.Ok) (hy : y.Ok) (h : op.arrays x y = .ok r) :
    r.Ok ∧ op.data x.data y.data = .ok r.data ∧ (∀ k, lookupEntry r.coords.items k = mergedCoord op.eqn (lookupEntry x.coords.items k) (lookupEntry y.coords.items k)) ∧
    (∃ m, op.masks x.masks.items y.masks.items = .ok m ∧ ((m.map Prod.fst).Nodup → r.masks.items = m)) ∧
    ∀ k e, (k, e) ∈ r.attrs.items ↔ (k, e) ∈ x.attrs.items ∧ ∃ e', (k, e') ∈ y.attrs.items ∧ op.eqn e' e = true := by
  obtain ⟨h1, -, h2⟩ := arrays_ok ho hx hy h
  unfold BinaryOp.arrays at h
  obtain ⟨c, -, h⟩ := bind_ok h
  obtain ⟨m, hm, h⟩ := bind_ok h
  obtain ⟨z, hz, h⟩ := bind_ok h
  unfold makeArray at h
  obtain ⟨c', -, h⟩ := bind_ok h
  obtain ⟨m', hm', h⟩ := bind_ok h
  obtain ⟨t, ht, h⟩ := bind_ok h
  cases h
  refine ⟨h1, hz, fun k => (C36_result op.eqn _ _ _ hx.coords.1.2.1 hy.coords.1.2.1 h2).2 k, ⟨m, hm, fun hn => BinMeta.ofItems_items hn hm'⟩, fun k e => ?_⟩
  have hn : ((intersection_ op.eqn x.attrs.items y.attrs.items).map Prod.fst).Nodup := hx.attrs.1.2.1.sublist (List.Sublist.map _ List.filter_sublist)
  show (k, e) ∈ t.items ↔ _
  rw [BinMeta.ofItems_items hn ht]
  exact C36_intersection op.eqn _ _ hy.attrs.1.2.1 k e

/-- The operation for a data array and a variable: coords and attrs are kept, masks are copied. -/
theorem C79_array_var (op : BinaryOp) {x r : DArray} {v : Entry} :
    (op.arrayVar x v = .ok r → op.data x.data v = .ok r.data ∧ r.coords.items = x.coords.items ∧ r.masks.items = op.copyMasks x.masks.items ∧
      r.attrs.items = x.attrs.items) ∧
    (op.varArray v x = .ok r → op.data v x.data = .ok r.data ∧ r.coords.items = x.coords.items ∧ r.masks.items = op.copyMasks x.masks.items ∧
      r.attrs.items = x.attrs.items) := by
  have hset : ∀ {d c : SizedDict} {s : Sizes}, d.setSizes s = .ok c → c.items = d.items := fun h => by
    unfold SizedDict.setSizes at h
    split at h
    · cases h; rfl
    · cases h
  have hmk : ∀ {z : Entry} {c m t : SizedDict}, makeArrayFrom z c m t = .ok r → r.data = z ∧ r.coords.items = c.items ∧ r.masks.items = m.items ∧ r.attrs.items = t.items := by
    intro z c m t h
    unfold makeArrayFrom at h
    obtain ⟨c', hc, h⟩ := bind_ok h
    obtain ⟨m', hm, h⟩ := bind_ok h
    obtain ⟨t', ht, h⟩ := bind_ok h
    cases h
    exact ⟨rfl, (hset hc).trans rfl, (hset hm).trans rfl, (hset ht).trans rfl⟩
  constructor
  · intro h
    unfold BinaryOp.arrayVar at h
    obtain ⟨z, hz, h⟩ := bind_ok h
    obtain ⟨k1, k2⟩ := hmk h
    exact ⟨k1 ▸ hz, k2⟩
  · intro h
    unfold BinaryOp.varArray at h
    obtain ⟨z, hz, h⟩ := bind_ok h
    obtain ⟨k1, k2⟩ := hmk h
    exact ⟨k1 ▸ hz, k2⟩

/-! ### `merge` -/

/-- `merge` of datasets that agree: items with the same name are equal, and so are coords with the same name and flag. The result has the items of both, and the
union of the coords; unaligned coords are kept with the items that see them. -/
theorem C79_merge_partial {eq eqn : Entry → Entry → Bool} (hq : Comparison eqn)
    {order : List (Dim × DArray) → List (Dim × DArray)} (horder : ∀ l, (order l).Perm l) {a b : Dset} (ha : a.Ok) (hb : b.Ok)
    (hne : a.items ≠ [] ∨ b.items ≠ []) (hsame : SameSizes a.coords.sizes b.coords.sizes)
    (hitems : ∀ n x y, a.get n = .ok x → b.get n = .ok y → arrayEq eq y x = true)
    (hcoords : ∀ k x y, lookupEntry a.coords.items k = some x → lookupEntry b.coords.items k = some y → x.aligned = y.aligned → eqn x y = true) :
    ∃ d, merge eq eqn order a b = .ok d ∧ d.Ok ∧ SameSizes d.coords.sizes a.coords.sizes ∧
      (∀ n, lookupEntry d.items n = (lookupEntry a.items n).or (lookupEntry b.items n)) ∧
      ∀ k, lookupEntry d.coords.items k =
        (mergedCoord eqn (lookupEntry a.coords.items k) (lookupEntry b.coords.items k)).or ((own a k).or (own b k)) := by
  have hX := itemArrays_eq ha a.items (fun p hp => hp)
  have hY := itemArrays_eq hb b.items (fun p hp => hp)
  set X := a.items.map fun p => (p.1, arr a p.2) with hXd
  set Y := b.items.map fun p => (p.1, arr b p.2) with hYd
  have hXl : ∀ n, lookupEntry X n = (lookupEntry a.items n).map (arr a) := lookup_map_snd _ _
  have hYl : ∀ n, lookupEntry Y n = (lookupEntry b.items n).map (arr b) := lookup_map_snd _ _
  have hXn : (X.map Prod.fst).Nodup := by rw [hXd, List.map_map]; exact ha.names
  have hYn : (Y.map Prod.fst).Nodup := by rw [hYd, List.map_map]; exact hb.names
  have hshared : ∀ p ∈ Y, ∀ x, lookupEntry X p.1 = some x → arrayEq eq p.2 x = true := by
    intro p hp x hx
    obtain ⟨q, hq', rfl⟩ := List.mem_map.1 hp
    rw [hXl] at hx
    cases hl : lookupEntry a.items q.1 with
    | none => simp only [hl] at hx; cases hx
    | some it =>
      simp only [hl, Option.map_some, Option.some.injEq] at hx
      subst hx
      exact hitems q.1 _ _ (get_seen ha hl) (get_seen hb (lookup_of_mem (e := q.2) hb.names hq'))
  have hN := newItems_eq Y hshared
  set N := Y.filter fun p => (lookupEntry X p.1).isNone with hNd
  -- the coords
  obtain ⟨c, hc⟩ : ∃ c, union_ eqn a.coords.items b.coords.items = .ok c := by
    cases h : union_ eqn a.coords.items b.coords.items with
    | ok c => exact ⟨c, rfl⟩
    | error e =>
      obtain ⟨k, x, y, h1, h2, h3, h4, h5⟩ := (C36_fails_iff eqn _ _ ha.coords.2.1 hb.coords.2.1).1 ⟨e, h⟩
      rw [hcoords k x y (lookup_of_mem ha.coords.2.1 h1) (lookup_of_mem hb.coords.2.1 h2) (h3.trans h4.symm)] at h5
      cases h5
  obtain ⟨hcn, hcl⟩ := C36_result eqn _ _ _ ha.coords.2.1 hb.coords.2.1 hc
  -- the items
  have hLn : ((X ++ N).map Prod.fst).Nodup := by
    rw [List.map_append, List.nodup_append]
    refine ⟨hXn, hYn.sublist (List.Sublist.map _ List.filter_sublist), fun x hx y hy hxy => ?_⟩
    subst hxy
    obtain ⟨p, hp, rfl⟩ := List.mem_map.1 hy
    have := (List.mem_filter.1 hp).2
    rw [Option.isNone_iff_eq_none, lookup_none] at this
    exact this hx
  have hmemX : ∀ p ∈ X, ∃ it, p.2 = arr a it ∧ lookupEntry a.items p.1 = some it := by
    intro p hp
    obtain ⟨q, hq', rfl⟩ := List.mem_map.1 hp
    exact ⟨q.2, rfl, lookup_of_mem (e := q.2) ha.names hq'⟩
  have hmemN : ∀ p ∈ N, ∃ it, p.2 = arr b it ∧ lookupEntry b.items p.1 = some it := by
    intro p hp
    obtain ⟨q, hq', rfl⟩ := List.mem_map.1 (List.mem_filter.1 hp).1
    exact ⟨q.2, rfl, lookup_of_mem (e := q.2) hb.names hq'⟩
  have hok : ∀ p ∈ X ++ N, p.2.Ok ∧ SameSizes p.2.data.dims a.coords.sizes := by
    intro p hp
    rcases List.mem_append.1 hp with hp | hp
    · obtain ⟨it, h1, h2⟩ := hmemX p hp
      rw [h1]
      exact ⟨seen_ok ha (ha.items _ (lookup_mem h2)), (ha.items _ (lookup_mem h2)).dims⟩
    · obtain ⟨it, h1, h2⟩ := hmemN p hp
      rw [h1]
      exact ⟨seen_ok hb (hb.items _ (lookup_mem h2)), (hb.items _ (lookup_mem h2)).dims.trans hsame.symm⟩
  have hseen : ∀ p ∈ X ++ N, p.2.coords.items = seen a ∨ p.2.coords.items = seen b := by
    intro p hp
    rcases List.mem_append.1 hp with hp | hp
    · obtain ⟨it, h1, h2⟩ := hmemX p hp; rw [h1]; exact .inl rfl
    · obtain ⟨it, h1, h2⟩ := hmemN p hp; rw [h1]; exact .inr rfl
  -- agreement
  have hflags : ∀ x y : Entry, eqn x { y with view := y.view.asConst } = eqn x y := fun x y => by rw [hq.symm, hq.flags, hq.symm]
  have hab : ∀ k x y, visible a k = some x → visible b k = some y → x.aligned = y.aligned → eqn x y = true := by
    intro k x y hx hy hal
    obtain ⟨x', hx', rfl⟩ := visible_some hx
    obtain ⟨y', hy', rfl⟩ := visible_some hy
    rw [hq.flags, hflags]
    exact hcoords k x' y' hx' hy' hal
  have agree_seen : ∀ p ∈ X ++ N, ∀ q ∈ X ++ N, Agree eqn p.2.coords.items q.2.coords.items := by
    intro p hp q hq' k x y hx hy hal
    rcases hseen p hp with h1 | h1 <;> rcases hseen q hq' with h2 | h2 <;> rw [h1] at hx <;> rw [h2] at hy
    · rw [hx] at hy; cases hy; exact hq.refl x
    · rw [lookup_seen ha] at hx; rw [lookup_seen hb] at hy
      rw [hq.symm]; exact hab k x y hx hy hal
    · rw [lookup_seen hb] at hx; rw [lookup_seen ha] at hy
      exact hab k y x hy hx hal.symm
    · rw [hx] at hy; cases hy; exact hq.refl x
  have agree_union : ∀ p ∈ X ++ N, Agree eqn c p.2.coords.items := by
    intro p hp k x y hx hy hal
    rw [hcl] at hx
    rcases hseen p hp with h2 | h2 <;> rw [h2] at hy
    · rw [lookup_seen ha] at hy
      obtain ⟨y', hy', rfl⟩ := visible_some hy
      rw [hq.flags]
      rcases merged_mem hx with h | h
      · rw [hy'] at h; cases h; exact hq.refl _
      · exact hcoords k y' x hy' h hal.symm
    · rw [lookup_seen hb] at hy
      obtain ⟨y', hy', rfl⟩ := visible_some hy
      rw [hq.flags]
      rcases merged_mem hx with h | h
      · rw [hq.symm]; exact hcoords k x y' h hy' hal
      · rw [hy'] at h; cases h; exact hq.refl _
  -- assembling
  have hperm := horder (X ++ N)
  set L := order (X ++ N) with hLd
  have hLne : L ≠ [] := by
    intro h
    rw [h] at hperm
    have hnil := hperm.symm.eq_nil
    have h1 : X = [] := (List.append_eq_nil_iff.1 hnil).1
    have h2 : N = [] := (List.append_eq_nil_iff.1 hnil).2
    rcases hne with h | h
    · exact h (by rw [hXd] at h1; exact List.map_eq_nil_iff.1 h1)
    · rw [hNd, h1] at h2
      have : Y = [] := by simpa [lookupEntry] using h2
      rw [hYd] at this
      exact h (List.map_eq_nil_iff.1 this)
  have hentry : ∀ p ∈ c, EntryOk a.coords.sizes p.2 := by
    intro p hp
    have := lookup_of_mem hcn (k := p.1) (e := p.2) hp
    rw [hcl] at this
    rcases merged_mem this with h | h
    · exact ha.coords.2.2 _ (lookup_mem h)
    · exact hb.coords.same hsame.symm (lookup_mem h)
  obtain ⟨p0, L', hL'⟩ : ∃ p0 L', L = p0 :: L' := by
    cases hl : L with
    | nil => exact absurd hl hLne
    | cons p l => exact ⟨p, l, rfl⟩
  have hp0 : p0 ∈ X ++ N := hperm.mem_iff.1 (by rw [hL']; simp)
  obtain ⟨hp0ok, hp0s⟩ := hok p0 hp0
  have hsc := setCoords_eq c (d := ⟨⟨p0.2.data.dims, [], false⟩, [], false, true⟩) rfl rfl rfl hp0ok.data.1 (by simpa using hcn)
    (fun p hp => ⟨(hentry p hp).1, (hentry p hp).2.1, (hentry p hp).2.2.same hp0s.symm⟩)
  have hd0 : Dset.Ok ⟨⟨p0.2.data.dims, c, false⟩, [], false, true⟩ :=
    ⟨⟨hp0ok.data.1, hcn, fun p hp => ⟨(hentry p hp).1, (hentry p hp).2.1, (hentry p hp).2.2.same hp0s.symm⟩⟩, List.nodup_nil,
      fun p hp => (nomatch hp), fun _ => rfl, fun h => (nomatch h)⟩
  obtain ⟨d, k1, -, k3, -, -, k6, k7, k8⟩ := fill_valid (eq := eq) (eqn := eqn) L hd0 rfl rfl ((hperm.map Prod.fst).nodup_iff.2 hLn) (fun _ _ => rfl)
    (fun p hp => (hok p (hperm.mem_iff.1 hp)).1) (fun p hp => (hok p (hperm.mem_iff.1 hp)).2.trans hp0s.symm)
    (fun p hp => agree_union p (hperm.mem_iff.1 hp))
    (List.pairwise_of_forall_mem_list fun p hp q hq' => agree_seen p (hperm.mem_iff.1 hp) q (hperm.mem_iff.1 hq'))
  refine ⟨d, ?_, k3, ?_, fun n => ?_, fun k => ?_⟩
  · unfold merge
    rw [hX, hY]
    simp only [bind, Except.bind]
    rw [hN]
    dsimp only
    rw [hc]
    dsimp only
    rw [← hLd, hL']
    unfold makeDataset
    simp only [bind, Except.bind]
    rw [hsc]
    rw [hL'] at k1
    simpa using k1
  · rw [k6]; exact hp0s
  · have hsplit : lookupEntry (X ++ N) n = (lookupEntry X n).or (lookupEntry Y n) := by
      have := lookup_addMissing
      cases hx : lookupEntry X n with
      | some x => exact lookup_of_mem hLn (List.mem_append_left _ (lookup_mem hx))
      | none =>
        rw [Option.none_or]
        cases hy : lookupEntry Y n with
        | some y => exact lookup_of_mem hLn (List.mem_append_right _ (List.mem_filter.2 ⟨lookup_mem hy, by dsimp only; rw [hx]; rfl⟩))
        | none =>
          rw [lookup_none] at hx hy ⊢
          rw [List.map_append, List.mem_append]
          rintro (h | h)
          · exact hx h
          · obtain ⟨p, hp, rfl⟩ := List.mem_map.1 h
            exact hy (List.mem_map_of_mem (f := Prod.fst) (List.mem_filter.1 hp).1)
    have hpl : lookupEntry L n = lookupEntry (X ++ N) n := by
      cases h : lookupEntry (X ++ N) n with
      | some e => exact lookup_of_mem ((hperm.map Prod.fst).nodup_iff.2 hLn) (hperm.mem_iff.2 (lookup_mem h))
      | none => rw [lookup_none] at h ⊢; exact fun hm => h ((hperm.map Prod.fst).mem_iff.1 hm)
    rw [k7, List.nil_append, lookup_map_snd, hpl, hsplit, hXl, hYl]
    cases lookupEntry a.items n <;> cases lookupEntry b.items n <;> rfl
  · rw [k8]
    show (lookupEntry c k).or _ = _
    rw [hcl]
    cases hm : mergedCoord eqn (lookupEntry a.coords.items k) (lookupEntry b.coords.items k) with
    | some e => rfl
    | none =>
      rw [Option.none_or, Option.none_or]
      -- no coord of the union: at most one of the datasets has it
      have hnot : ∀ x y, lookupEntry a.coords.items k = some x → lookupEntry b.coords.items k = some y → False := by
        intro x y hx hy
        rw [hx, hy] at hm
        simp only [mergedCoord] at hm
        split at hm
        · cases hm
        · rename_i h1
          split at hm
          · cases hm
          · rename_i h2
            rw [hcoords k x y hx hy (by rw [Bool.not_eq_true] at h1 h2; rw [h1, h2])] at hm
            cases hm
      cases hoa : own a k with
      | some e =>
        rw [Option.some_or]
        unfold own at hoa
        split at hoa
        · cases hoa
        · rename_i hane
          obtain ⟨x, hx, -⟩ := visible_some hoa
          obtain ⟨q, hq'⟩ := List.exists_mem_of_ne_nil _ hane
          have hmem : (q.1, arr a q.2) ∈ L := hperm.mem_iff.2 (List.mem_append_left _ (List.mem_map.2 ⟨q, hq', rfl⟩))
          cases hf : firstCoord L k with
          | none =>
            have := firstCoord_none.1 hf _ hmem
            rw [show lookupEntry (arr a q.2).coords.items k = _ from lookup_seen ha k, hoa] at this
            cases this
          | some e' =>
            obtain ⟨p, hp, he'⟩ := firstCoord_mem hf
            rcases hseen p (hperm.mem_iff.1 hp) with h | h <;> rw [h] at he'
            · rw [lookup_seen ha, hoa] at he'; exact he'.symm
            · rw [lookup_seen hb] at he'
              obtain ⟨y, hy, -⟩ := visible_some he'
              exact (hnot x y hx hy).elim
      | none =>
        rw [Option.none_or]
        have hXk : ∀ p ∈ X, lookupEntry p.2.coords.items k = none := by
          intro p hp
          obtain ⟨it, h1, h2⟩ := hmemX p hp
          rw [h1, show lookupEntry (arr a it).coords.items k = _ from lookup_seen ha k]
          unfold own at hoa
          rw [if_neg (List.ne_nil_of_mem (lookup_mem h2))] at hoa
          exact hoa
        cases hf : firstCoord L k with
        | some e' =>
          obtain ⟨p, hp, he'⟩ := firstCoord_mem hf
          rcases List.mem_append.1 (hperm.mem_iff.1 hp) with h | h
          · rw [hXk p h] at he'; cases he'
          · obtain ⟨it, h1, h2⟩ := hmemN p h
            rw [h1, show lookupEntry (arr b it).coords.items k = _ from lookup_seen hb k] at he'
            unfold own
            rw [if_neg (List.ne_nil_of_mem (lookup_mem h2)), he']
        | none =>
          symm
          cases hob : own b k with
          | none => rfl
          | some e =>
            exfalso
            unfold own at hob
            split at hob
            · cases hob
            · rename_i hbne
              obtain ⟨q, hq'⟩ := List.exists_mem_of_ne_nil _ hbne
              cases hxq : lookupEntry X q.1 with
              | none =>
                have hmem : (q.1, arr b q.2) ∈ L :=
                  hperm.mem_iff.2 (List.mem_append_right _ (List.mem_filter.2 ⟨List.mem_map.2 ⟨q, hq', rfl⟩, by dsimp only; rw [hxq]; rfl⟩))
                have := firstCoord_none.1 hf _ hmem
                rw [show lookupEntry (arr b q.2).coords.items k = _ from lookup_seen hb k, hob] at this
                cases this
              | some x =>
                have hsh := hshared (q.1, arr b q.2) (List.mem_map.2 ⟨q, hq', rfl⟩) x hxq
                unfold arrayEq at hsh
                simp only [Bool.and_eq_true] at hsh
                obtain ⟨it, h1, h2⟩ := hmemX (q.1, x) (lookup_mem hxq)
                dsimp only at h1 h2
                have hne' : a.items ≠ [] := List.ne_nil_of_mem (lookup_mem h2)
                have hce := hsh.1.1.1
                unfold coordDictEq at hce
                rw [Bool.and_eq_true, List.all_eq_true] at hce
                have := hce.2 (k, e) (lookup_mem (show lookupEntry (seen b) k = some e by rw [lookup_seen hb]; exact hob))
                rw [h1] at this
                rw [show lookupEntry (arr a it).coords.items k = _ from lookup_seen ha k] at this
                unfold own at hoa
                rw [if_neg hne'] at hoa
                rw [hoa] at this
                cases this

/-- **C79** (`merge` of datasets without items): the coords are merged. The result is a usable dataset which is not read-only; its sizes are the
smallest extents in any of its coords. -/
theorem C79_merge_no_items {eq eqn : Entry → Entry → Bool} {order : List (Dim × DArray) → List (Dim × DArray)} (horder : ∀ l, (order l).Perm l)
    {a b : Dset} (ha : a.Ok) (hb : b.Ok) (hia : a.items = []) (hib : b.items = []) (hsame : SameSizes a.coords.sizes b.coords.sizes)
    (hv : ∀ p, p ∈ a.coords.items ∨ p ∈ b.coords.items → Dim.invalid ∉ labels p.2.dims)
    (hcoords : ∀ k x y, lookupEntry a.coords.items k = some x → lookupEntry b.coords.items k = some y → x.aligned = true → y.aligned = true →
      eqn x y = true) :
    ∃ d, merge eq eqn order a b = .ok d ∧ d.Ok ∧ d.items = [] ∧ d.readonly = false ∧ d.valid = true ∧ d.coords.readonly = false ∧
      (∀ k, lookupEntry d.coords.items k = mergedCoord eqn (lookupEntry a.coords.items k) (lookupEntry b.coords.items k)) ∧
      ∀ e n, (e, n) ∈ d.coords.sizes ↔ IsSmallest (allDims d.coords.items) e n := by
  have horder' : order [] = [] := List.length_eq_zero_iff.1 (horder []).length_eq
  obtain ⟨c, hc⟩ : ∃ c, union_ eqn a.coords.items b.coords.items = .ok c := by
    cases h : union_ eqn a.coords.items b.coords.items with
    | ok c => exact ⟨c, rfl⟩
    | error e =>
      obtain ⟨k, x, y, h1, h2, h3, h4, h5⟩ := (C36_fails_iff eqn _ _ ha.coords.2.1 hb.coords.2.1).1 ⟨e, h⟩
      rw [hcoords k x y (lookup_of_mem ha.coords.2.1 h1) (lookup_of_mem hb.coords.2.1 h2) h3 h4] at h5
      cases h5
  obtain ⟨hcn, hcl⟩ := C36_result eqn _ _ _ ha.coords.2.1 hb.coords.2.1 hc
  -- every coord of the result comes from one of the operands
  have hsrc : ∀ p ∈ c, p ∈ a.coords.items ∨ p ∈ b.coords.items := by
    intro p hp
    have h := hcl p.1
    rw [lookup_of_mem (e := p.2) hcn hp] at h
    cases hx : lookupEntry a.coords.items p.1 with
    | none =>
      cases hy : lookupEntry b.coords.items p.1 with
      | none => rw [hx, hy] at h; cases h
      | some y =>
        rw [hx, hy] at h
        simp only [mergedCoord] at h
        split at h
        · injection h with h; exact .inr (by rw [← h] at hy; exact lookup_mem hy)
        · cases h
    | some x =>
      cases hy : lookupEntry b.coords.items p.1 with
      | none =>
        rw [hx, hy] at h
        simp only [mergedCoord] at h
        split at h
        · injection h with h; exact .inl (by rw [← h] at hx; exact lookup_mem hx)
        · cases h
      | some y =>
        rw [hx, hy] at h
        simp only [mergedCoord] at h
        split at h
        · injection h with h; exact .inl (by rw [← h] at hx; exact lookup_mem hx)
        · split at h
          · injection h with h; exact .inr (by rw [← h] at hy; exact lookup_mem hy)
          · split at h
            · injection h with h; exact .inr (by rw [← h] at hy; exact lookup_mem hy)
            · cases h
  have hentry : ∀ p ∈ c, p.2.view.WF ∧ p.2.binned = false ∧ Fits a.coords.sizes p.2.dims := by
    intro p hp
    rcases hsrc p hp with h | h
    · exact ha.coords.2.2 p h
    · obtain ⟨h1, h2, h3⟩ := hb.coords.2.2 p h
      exact ⟨h1, h2, h3.same hsame.symm⟩
  -- the extents of a dim differ by at most one
  have hext : ∀ e m, (e, m) ∈ allDims c → (∃ s, (e, s) ∈ a.coords.sizes ∧ (m = s ∨ m = s + 1)) ∨ (e ∉ labels a.coords.sizes ∧ m = 2) := by
    intro e m h
    obtain ⟨p, hp, hm⟩ := List.mem_flatMap.1 h
    obtain ⟨-, -, x, f1, f2⟩ := hentry p hp
    by_cases he : e = x
    · subst he
      rcases f2 m hm with h | ⟨s, h1, h2⟩ | h
      · exact .inl ⟨m, h, .inl rfl⟩
      · exact .inl ⟨s, h1, .inr h2⟩
      · exact .inr h
    · exact .inl ⟨m, f1 e m hm he, .inl rfl⟩
  have huniq : ∀ {e s s' : Int} {d : Dim}, (d, s) ∈ a.coords.sizes → (d, s') ∈ a.coords.sizes → s = s' := by
    intro _ s s' d h1 h2
    have h3 := at?_of_mem ha.coords.1.1 h1
    rw [at?_of_mem ha.coords.1.1 h2] at h3
    injection h3 with h3
    exact h3.symm
  obtain ⟨sizes, z1, z2, z3⟩ := C35_auto_accepted c false (fun p hp => (hentry p hp).1) (by
    intro q hq
    obtain ⟨p, hp, hm⟩ := List.mem_flatMap.1 hq
    intro he
    exact hv p (hsrc p hp) (he ▸ mem_labels (show (q.1, q.2) ∈ p.2.dims from hm))) (by
    intro e m k h1 h2
    rcases hext e m h1 with ⟨s, hs, h⟩ | ⟨hs, h⟩
    · rcases hext e k h2 with ⟨s', hs', h'⟩ | ⟨hs', h'⟩
      · have := huniq (e := 0) hs hs'
        omega
      · exact absurd (mem_labels hs) hs'
    · rcases hext e k h2 with ⟨s', hs', h'⟩ | ⟨hs', h'⟩
      · exact absurd (mem_labels hs') hs
      · omega)
  have hfit : ∀ p ∈ c, EntryOk sizes p.2 := by
    intro p hp
    obtain ⟨w, nb, x, f1, f2⟩ := hentry p hp
    have hin : ∀ e m, (e, m) ∈ p.2.dims → (e, m) ∈ allDims c := fun e m h => List.mem_flatMap.2 ⟨p, hp, h⟩
    refine ⟨w, nb, x, fun d n hd hdx => (z2 d n).2 ⟨hin d n hd, fun m hm => ?_⟩, fun n hn => ?_⟩
    · have hs := f1 d n hd hdx
      rcases hext d m hm with ⟨s, h1, h2⟩ | ⟨h1, h2⟩
      · have := huniq (e := 0) hs h1
        omega
      · exact absurd (mem_labels hs) h1
    · by_cases hsm : IsSmallest (allDims c) x n
      · exact .inl ((z2 x n).2 hsm)
      · right; left
        obtain ⟨m, hm, hlt⟩ : ∃ m, (x, m) ∈ allDims c ∧ m < n := by
          by_contra hcon
          exact hsm ⟨hin x n hn, fun m hm => by by_contra hl; exact hcon ⟨m, hm, by omega⟩⟩
        have key : ∀ s m', (x, s) ∈ a.coords.sizes → (x, m') ∈ allDims c → s ≤ m' := by
          intro s m' hs hm'
          rcases hext x m' hm' with ⟨s', h1, h2⟩ | ⟨h1, h2⟩
          · have := huniq (e := 0) hs h1
            omega
          · exact absurd (mem_labels hs) h1
        rcases hext x m hm with ⟨s, h1, h2⟩ | ⟨h1, h2⟩
        · rcases hext x n (hin x n hn) with ⟨s', h3, h4⟩ | ⟨h3, h4⟩
          · have := huniq (e := 0) h1 h3
            exact ⟨m, (z2 x m).2 ⟨hm, fun m' hm' => by have := key s m' h1 hm'; omega⟩, by omega⟩
          · exact absurd (mem_labels h1) h3
        · rcases hext x n (hin x n hn) with ⟨s', h3, h4⟩ | ⟨h3, h4⟩
          · exact absurd (mem_labels h3) h1
          · omega
  have hof := ofItems_exists (ro := false) z1 c hcn hfit
  have heq : merge eq eqn order a b = .ok ⟨⟨sizes, c, false⟩, [], false, true⟩ := by
    unfold merge
    simp only [hia, hib, itemArrays, newItems, bind, Except.bind, hc, List.append_nil, horder', makeDataset, z3, hof, pure, Except.pure]
  exact ⟨_, heq, ⟨⟨z1, hcn, hfit⟩, List.nodup_nil, fun p hp => (nomatch hp), fun _ => rfl, fun h => (nomatch h)⟩, rfl, rfl, rfl, rfl, hcl, z2⟩

/-- Items with the same name that are not equal are reported. -/
theorem C79_merge_items {eq eqn : Entry → Entry → Bool} {order : List (Dim × DArray) → List (Dim × DArray)} {a b : Dset} (ha : a.Ok) (hb : b.Ok)
    {n : Dim} {x y : DArray} (hx : a.get n = .ok x) (hy : b.get n = .ok y) (hne : arrayEq eq y x = false) :
    merge eq eqn order a b = .error .dataArray := by
  have hX := itemArrays_eq ha a.items (fun p hp => hp)
  have hY := itemArrays_eq hb b.items (fun p hp => hp)
  cases hla : lookupEntry a.items n with
  | none => unfold Dset.get at hx; rw [hla] at hx; cases hx
  | some ia =>
    cases hlb : lookupEntry b.items n with
    | none => unfold Dset.get at hy; rw [hlb] at hy; cases hy
    | some ib =>
      rw [get_seen ha hla] at hx
      rw [get_seen hb hlb] at hy
      cases hx
      cases hy
      have := newItems_error (eq := eq) (a := a.items.map fun p => (p.1, arr a p.2)) (n := n) (x := arr a ia) (y := arr b ib)
        (by rw [lookup_map_snd, hla]; rfl) hne (b.items.map fun p => (p.1, arr b p.2)) (List.mem_map.2 ⟨(n, ib), lookup_mem hlb, rfl⟩)
      unfold merge
      rw [hX, hY]
      simp only [bind, Except.bind]
      rw [this]

/-- Aligned coords with different values are reported. -/
theorem C79_merge_conflict {eq eqn : Entry → Entry → Bool} {order : List (Dim × DArray) → List (Dim × DArray)} {a b : Dset} (ha : a.Ok) (hb : b.Ok)
    {k : Dim} {x y : Entry} (hx : lookupEntry a.coords.items k = some x) (hy : lookupEntry b.coords.items k = some y) (hxa : x.aligned = true)
    (hya : y.aligned = true) (hne : eqn x y = false) : ∃ err, merge eq eqn order a b = .error err := by
  cases h : merge eq eqn order a b with
  | error e => exact ⟨e, rfl⟩
  | ok d =>
    exfalso
    unfold merge at h
    obtain ⟨X, -, h⟩ := bind_ok h
    obtain ⟨Y, -, h⟩ := bind_ok h
    obtain ⟨N, -, h⟩ := bind_ok h
    obtain ⟨c, hc, h⟩ := bind_ok h
    obtain ⟨err, he⟩ := (C36_fails_iff eqn a.coords.items b.coords.items ha.coords.2.1 hb.coords.2.1).2 ⟨k, x, y, lookup_mem hx, lookup_mem hy, hxa, hya, hne⟩
    rw [hc] at he
    cases he

/-! ### Examples and disagreements -/

/-- An operation that requires the same dims and has the masks of the first operand. -/
def dsOp : BinaryOp :=
  ⟨fun x y => if x.dims = y.dims then .ok { x with view := { x.view with readonly := false }, obj := x.obj + y.obj } else .error .dimension, fun x _ => .ok x, id, dsEq, dsEq⟩

theorem dsOp_regular : dsOp.Regular := by
  refine ⟨fun x y z hx hy h => ?_, fun x y z hx _ h => ?_, fun x => ⟨rfl, fun h p hp => ⟨h p hp, p, hp, rfl, rfl⟩⟩, fun x => by simp [dsOp, dsEq]⟩
  · simp only [dsOp] at h
    split at h
    · rename_i hd
      cases h
      refine ⟨hx, fun p => ?_⟩
      rw [← hd]
      exact (or_self_iff).symm
    · cases h
  · cases h; exact hx

/-- An item of dims {2: 3}. -/
def dsItem (obj : Nat) : DItem := ⟨dsVar obj 2 3, ⟨[(2, 3)], [(9, dsVar 21 2 3)], false⟩, ⟨[(2, 3)], [], false⟩⟩

theorem dsItem_fits (obj : Nat) : (dsItem obj).Fits [(2, 3)] :=
  ⟨dsVar_wf _ _ _ (by decide), SameSizes.rfl', ⟨dsDict 2 9 21 true (by decide) (.inl rfl), SameSizes.rfl'⟩,
    ⟨⟨⟨by simp [dsItem, labels], by simp [dsItem]⟩, by simp [dsItem], by simp [dsItem]⟩, SameSizes.rfl'⟩⟩

/-- A dataset of dims {2: 3} with one coord and the given items. -/
def dsMake (k : Dim) (e : Entry) (items : List (Dim × DItem)) : Dset := ⟨⟨[(2, 3)], [(k, e)], false⟩, items, false, true⟩

theorem dsMake_ok (k : Dim) (obj : Nat) (m : Int) (a : Bool) (h : m = 3 ∨ m = 3 + 1) (l : List (Dim × Nat)) (hn : (l.map Prod.fst).Nodup) :
    (dsMake k (dsVar obj 2 m a) (l.map fun p => (p.1, dsItem p.2))).Ok :=
  ⟨dsDict 2 k obj a (by decide) h, by rw [dsMake, List.map_map]; exact hn, fun p hp => by
      obtain ⟨q, -, rfl⟩ := List.mem_map.1 hp
      exact dsItem_fits _, fun _ => rfl, fun h => (nomatch h)⟩

/-- Items 5 and 7, with bin edges. -/
def dsP : Dset := dsMake 2 (dsVar 10 2 4) [(5, dsItem 20), (7, dsItem 30)]

/-- Items 7 and 6, with another coord. -/
def dsQ : Dset := dsMake 4 (dsVar 11 2 3) [(7, dsItem 40), (6, dsItem 50)]

theorem dsP_ok : dsP.Ok := dsMake_ok 2 10 4 true (.inr rfl) [(5, 20), (7, 30)] (by decide)

theorem dsQ_ok : dsQ.Ok := dsMake_ok 4 11 3 true (.inl rfl) [(7, 40), (6, 50)] (by decide)

/-- What an item sees of a coord. -/
def dsConst (e : Entry) : Entry := { e with view := e.view.asConst }

/-- The item with a coord. -/
def dsArray (obj : Nat) (coords : List (Dim × Entry)) (ro : Bool) : DArray := ⟨dsVar obj 2 3, ⟨[(2, 3)], coords, ro⟩, ⟨[(2, 3)], [(9, dsVar 21 2 3)], false⟩, ⟨[(2, 3)], [], false⟩⟩

example : common dsP dsQ = [7] := by decide
example : dsP.get 7 = .ok (dsArray 30 [(2, dsConst (dsVar 10 2 4))] true) := by decide +kernel
example : dsOp.datasets dsP dsQ = .ok ⟨⟨[(2, 3)], [(2, dsConst (dsVar 10 2 4)), (4, dsConst (dsVar 11 2 3))], false⟩, [(7, dsItem 70)], false, true⟩ := by
  decide +kernel

/-- The result for the common item. -/
def dsR : DArray := dsArray 70 [(2, dsConst (dsVar 10 2 4)), (4, dsConst (dsVar 11 2 3))] false

theorem dsR_eq : ∃ x y, dsP.get 7 = .ok x ∧ dsQ.get 7 = .ok y ∧ dsOp.arrays x y = .ok dsR :=
  ⟨dsArray 30 [(2, dsConst (dsVar 10 2 4))] true, dsArray 40 [(4, dsConst (dsVar 11 2 3))] true, by decide +kernel, by decide +kernel, by decide +kernel⟩

private theorem dsPQ : ∀ n, n ∈ names dsP → n ∈ names dsQ → n = 7 := by
  intro n h1 h2
  have h1 : n = 5 ∨ n = 7 := by simpa [names, dsP, dsMake] using h1
  have h2 : n = 7 ∨ n = 6 := by simpa [names, dsQ, dsMake] using h2
  rcases h1 with rfl | rfl
  · revert h2; decide
  · rfl

example := C79_datasets dsOp_regular dsP_ok dsQ_ok (fun _ => dsR) (fun n h1 h2 => by rw [dsPQ n h1 h2]; exact dsR_eq)
example := (C79_datasets_iff dsOp_regular dsP_ok dsQ_ok).2 (fun n h1 h2 => by
  rw [dsPQ n h1 h2]
  obtain ⟨x, y, h⟩ := dsR_eq
  exact ⟨x, y, dsR, h⟩)
example (k : Dim) := C79_coords_partial dsOp_regular dsP_ok dsQ_ok
  (d := ⟨⟨[(2, 3)], [(2, dsConst (dsVar 10 2 4)), (4, dsConst (dsVar 11 2 3))], false⟩, [(7, dsItem 70)], false, true⟩) (by decide +kernel)
  (n := 7) (by decide) (by decide) k
example := C79_readonly_coords dsOp_regular dsP_ok dsQ_ok
  (d := ⟨⟨[(2, 3)], [(2, dsConst (dsVar 10 2 4)), (4, dsConst (dsVar 11 2 3))], false⟩, [(7, dsItem 70)], false, true⟩) (by decide +kernel) (k := 4)
  (e := dsConst (dsVar 11 2 3)) rfl

/-- Other bin edges than `dsP`. -/
def dsP' : Dset := dsMake 2 (dsVar 12 2 4) [(6, dsItem 50), (7, dsItem 40)]

theorem dsP'_ok : dsP'.Ok := dsMake_ok 2 12 4 true (.inr rfl) [(6, 50), (7, 40)] (by decide)

example := C79_conflict_partial dsOp_regular dsP_ok dsP'_ok (n := 7) (k := 2) (x := dsConst (dsVar 10 2 4)) (y := dsConst (dsVar 12 2 4)) (by decide) (by decide)
  (by decide) (by decide) rfl rfl rfl
example := C79_datasets_error dsOp_regular dsP_ok dsP'_ok (before := []) (bad := 7) (after := []) (err := .dataset)
  (x := dsArray 30 [(2, dsConst (dsVar 10 2 4))] true) (y := dsArray 40 [(2, dsConst (dsVar 12 2 4))] true) (by decide) (by simp)
  (by decide +kernel) (by decide +kernel) (by decide +kernel)

/-- Different bin edges, no common item: the operation yields an empty dataset without dims. -/
example : dsOp.datasets (dsMake 2 (dsVar 10 2 4) [(5, dsItem 20)]) (dsMake 2 (dsVar 12 2 4) [(6, dsItem 50)]) = .ok ⟨⟨[], [], false⟩, [], false, true⟩ :=
  C79_disjoint dsOp (by decide)
example := C79_no_items dsOp (a := dsMake 2 (dsVar 10 2 4) []) rfl (dsArray 20 [] false) (dsVar 11 2 3)

example := C79_dataset_array dsOp_regular dsP_ok (b := dsArray 40 [(4, dsVar 11 2 3)] false)
  ⟨dsVar_wf _ _ _ (by decide), ⟨dsDict 2 4 11 true (by decide) (.inl rfl), SameSizes.rfl'⟩, (dsItem_fits 40).masks, (dsItem_fits 40).attrs⟩
  (fun n => dsArray (if n = 5 then 60 else 70) [(2, dsConst (dsVar 10 2 4)), (4, dsVar 11 2 3)] false) (fun n hn => by
    have : n = 5 ∨ n = 7 := by simpa [names, dsP, dsMake] using hn
    rcases this with rfl | rfl
    · exact ⟨dsArray 20 [(2, dsConst (dsVar 10 2 4))] true, by decide +kernel, by decide +kernel⟩
    · exact ⟨dsArray 30 [(2, dsConst (dsVar 10 2 4))] true, by decide +kernel, by decide +kernel⟩)
example := C79_array_dataset dsOp_regular (b := dsP) (a := dsArray 40 [(4, dsVar 11 2 3)] false)
  ⟨dsVar_wf _ _ _ (by decide), ⟨dsDict 2 4 11 true (by decide) (.inl rfl), SameSizes.rfl'⟩, (dsItem_fits 40).masks, (dsItem_fits 40).attrs⟩ dsP_ok
  (fun n => dsArray (if n = 5 then 60 else 70) [(4, dsVar 11 2 3), (2, dsConst (dsVar 10 2 4))] false) (fun n hn => by
    have : n = 5 ∨ n = 7 := by simpa [names, dsP, dsMake] using hn
    rcases this with rfl | rfl
    · exact ⟨dsArray 20 [(2, dsConst (dsVar 10 2 4))] true, by decide +kernel, by decide +kernel⟩
    · exact ⟨dsArray 30 [(2, dsConst (dsVar 10 2 4))] true, by decide +kernel, by decide +kernel⟩)

private theorem dsP_own : OwnDims dsP := by
  intro p hp
  have : p = (5, dsItem 20) ∨ p = (7, dsItem 30) := by simpa [dsP, dsMake] using hp
  rcases this with rfl | rfl <;> simp [dsItem, dsVar, dsP, dsMake, labels, Entry.dims]

example := C79_dataset_var dsOp_regular dsP_ok dsP_own (v := dsVar 40 2 3) (dsVar_wf _ _ _ (by decide))
  (fun n => dsArray (if n = 5 then 60 else 70) [(2, dsConst (dsVar 10 2 4))] false) (fun n hn => by
    have : n = 5 ∨ n = 7 := by simpa [names, dsP, dsMake] using hn
    rcases this with rfl | rfl
    · exact ⟨dsArray 20 [(2, dsConst (dsVar 10 2 4))] true, by decide +kernel, by decide +kernel⟩
    · exact ⟨dsArray 30 [(2, dsConst (dsVar 10 2 4))] true, by decide +kernel, by decide +kernel⟩)
example := C79_var_dataset dsOp_regular dsP_ok dsP_own (v := dsVar 40 2 3) (dsVar_wf _ _ _ (by decide))
  (fun n => dsArray (if n = 5 then 60 else 70) [(2, dsConst (dsVar 10 2 4))] false) (fun n hn => by
    have : n = 5 ∨ n = 7 := by simpa [names, dsP, dsMake] using hn
    rcases this with rfl | rfl
    · exact ⟨dsArray 20 [(2, dsConst (dsVar 10 2 4))] true, by decide +kernel, by decide +kernel⟩
    · exact ⟨dsArray 30 [(2, dsConst (dsVar 10 2 4))] true, by decide +kernel, by decide +kernel⟩)
example := C79_arrays dsOp_regular (dsArr_ok 4 12 3 true (.inl rfl)) (dsArr_ok 5 13 3 true (.inl rfl))
  (r := dsArray 40 [(4, dsVar 12 2 3), (5, dsVar 13 2 3)] false) (by decide +kernel)
example := (C79_array_var dsOp (x := dsArr 4 (dsVar 12 2 3)) (v := dsVar 40 2 3) (r := dsArray 60 [(4, dsVar 12 2 3)] false)).1 (by decide +kernel)

theorem dsComparison : Comparison dsEq :=
  ⟨fun x => by simp [dsEq], fun x y => by simp [dsEq, Bool.beq_comm], fun _ _ => rfl⟩

/-- As `dsQ`, but with the same item 7 and the same bin edges as `dsP`. -/
def dsQ' : Dset := dsMake 2 (dsVar 10 2 4) [(7, dsItem 30), (6, dsItem 50)]

theorem dsQ'_ok : dsQ'.Ok := dsMake_ok 2 10 4 true (.inr rfl) [(7, 30), (6, 50)] (by decide)

example : DatasetOps.merge dsEq dsEq id dsP dsQ' = .ok (dsMake 2 (dsVar 10 2 4) [(5, dsItem 20), (7, dsItem 30), (6, dsItem 50)]) := by decide +kernel

example := C79_merge_partial (eq := dsEq) dsComparison (order := List.reverse) (fun l => l.reverse_perm) dsP_ok dsQ'_ok (.inl (by decide)) SameSizes.rfl'
  (fun n x y hx hy => by
    have h : n = 7 := by
      by_contra hn
      have : ∀ m ∈ names dsP, m ∈ names dsQ' → m = 7 := by
        intro m h1 h2
        have h1 : m = 5 ∨ m = 7 := by simpa [names, dsP, dsMake] using h1
        have h2 : m = 7 ∨ m = 6 := by simpa [names, dsQ', dsMake] using h2
        rcases h1 with rfl | rfl
        · revert h2; decide
        · rfl
      refine hn (this n ?_ ?_)
      · rw [mem_names]
        unfold Dset.get at hx
        cases h : lookupEntry dsP.items n with
        | none => rw [h] at hx; cases hx
        | some it => exact ⟨it, rfl⟩
      · rw [mem_names]
        unfold Dset.get at hy
        cases h : lookupEntry dsQ'.items n with
        | none => rw [h] at hy; cases hy
        | some it => exact ⟨it, rfl⟩
    subst h
    have h1 : dsP.get 7 = .ok (dsArray 30 [(2, dsConst (dsVar 10 2 4))] true) := by decide +kernel
    have h2 : dsQ'.get 7 = .ok (dsArray 30 [(2, dsConst (dsVar 10 2 4))] true) := by decide +kernel
    rw [h1] at hx
    rw [h2] at hy
    cases hx
    cases hy
    decide +kernel)
  (fun k x y hx hy _ => by
    have : lookupEntry dsQ'.coords.items k = lookupEntry dsP.coords.items k := rfl
    rw [this, hx] at hy
    cases hy
    exact dsComparison.refl x)

/-- Edges and midpoints of the same dim, without data. -/
example : DatasetOps.merge dsEq dsEq id (dsMake 2 (dsVar 10 2 4) []) (dsMake 4 (dsVar 11 2 3) []) =
    .ok ⟨⟨[(2, 3)], [(2, dsVar 10 2 4), (4, dsVar 11 2 3)], false⟩, [], false, true⟩ := by decide +kernel

example := C79_merge_no_items (eq := dsEq) (eqn := dsEq) (order := id) (fun l => .refl l) (dsMake_ok 2 10 4 true (.inr rfl) [] (by decide))
  (dsMake_ok 4 11 3 true (.inl rfl) [] (by decide)) rfl rfl SameSizes.rfl' (by
    rintro p (h | h) <;> (simp only [dsMake, List.mem_singleton] at h; subst h; decide)) (by
    intro k x y h1 h2
    simp only [dsMake, lookupEntry] at h1 h2
    split at h1
    · rename_i h; subst h; cases h2
    · cases h1)

example := C79_merge_items (eq := dsEq) (eqn := dsEq) (order := id) dsP_ok dsQ_ok (n := 7) (x := dsArray 30 [(2, dsConst (dsVar 10 2 4))] true)
  (y := dsArray 40 [(4, dsConst (dsVar 11 2 3))] true) (by decide +kernel) (by decide +kernel) (by decide +kernel)
example := C79_merge_conflict (eq := dsEq) (eqn := dsEq) (order := id) dsP_ok dsP'_ok (k := 2) (x := dsVar 10 2 4) (y := dsVar 12 2 4) rfl rfl rfl rfl rfl

/-- Disagreement: unaligned coords with different values make `merge` fail, although binary operations and the union of coords drop them. -/
theorem C79_merge_wrong_unaligned :
    ∃ a b : Dset, a.Ok ∧ b.Ok ∧ (∀ n ∈ names a, n ∉ names b) ∧ SameSizes a.coords.sizes b.coords.sizes ∧
      union_ dsEq a.coords.items b.coords.items = .ok [] ∧ DatasetOps.merge dsEq dsEq id a b = .error .dataset :=
  ⟨dsMake 4 (dsVar 10 2 3 false) [(5, dsItem 20)], dsMake 4 (dsVar 11 2 3 false) [(6, dsItem 30)], dsMake_ok 4 10 3 false (.inl rfl) [(5, 20)] (by decide),
    dsMake_ok 4 11 3 false (.inl rfl) [(6, 30)] (by decide), by decide, SameSizes.rfl', by decide +kernel, by decide +kernel⟩

/-- Disagreement: datasets with the same item cannot be merged if one has a coord that the other does not have. -/
theorem C79_merge_wrong_other_coord :
    ∃ a b : Dset, a.Ok ∧ b.Ok ∧ a.items = b.items ∧ (∀ k x y, lookupEntry a.coords.items k = some x → lookupEntry b.coords.items k = some y → False) ∧
      DatasetOps.merge dsEq dsEq id a b = .error .dataArray :=
  ⟨dsMake 2 (dsVar 10 2 4) [(5, dsItem 20)], dsMake 4 (dsVar 11 2 3) [(5, dsItem 20)], dsMake_ok 2 10 4 true (.inr rfl) [(5, 20)] (by decide),
    dsMake_ok 4 11 3 true (.inl rfl) [(5, 20)] (by decide), rfl, (fun k x y h1 h2 => by
      simp only [dsMake, lookupEntry] at h1 h2
      split at h1
      · rename_i h; subst h; cases h2
      · cases h1), by decide +kernel⟩

/-- Disagreement: a dataset does not merge with coords along another dim. -/
theorem C79_merge_wrong_other_dim :
    ∃ a b : Dset, a.Ok ∧ b.Ok ∧ b.items = [] ∧ (∀ n ∈ labels a.coords.sizes, n ∉ labels b.coords.sizes) ∧
      DatasetOps.merge dsEq dsEq id a b = .error .dimension :=
  ⟨dsMake 2 (dsVar 10 2 4) [(5, dsItem 20)], ⟨⟨[(3, 3)], [(3, dsVar 11 3 3)], false⟩, [], false, true⟩,
    dsMake_ok 2 10 4 true (.inr rfl) [(5, 20)] (by decide),
    ⟨dsDict 3 3 11 true (by decide) (.inl rfl), List.nodup_nil, fun p hp => (nomatch hp), fun _ => rfl, fun h => (nomatch h)⟩, rfl, by decide, by decide +kernel⟩

end Scipp.Props
