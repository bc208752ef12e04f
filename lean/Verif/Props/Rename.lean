import Verif.Lemmas.Rename
import Verif.Lemmas.DatasetOps
import Verif.Props.Dataset
import Verif.Props.View
/-!
# C82: renaming dims of, and transposing, data arrays and datasets

Renaming changes labels and nothing else, in the data and in every coord, mask and attr alike, and can be undone. Transposing changes the order of the dims of
the data and nothing else.
-/
namespace Scipp.Props
open Sizes DatasetOps

variable {eq eqn : Entry → Entry → Bool}

/-- **C82** (data arrays): dims are renamed exactly if each pair replaces an existing dim by a new one and none of the new labels is a dim that only a coord, mask or
attr has. Then data, coords, masks and attrs have the new labels; everything else is as before, and the result is consistent. -/
theorem C82_array (a : DArray) (ha : a.Ok) (ns : List (Dim × Dim)) (a' : DArray) :
    a.renameDims ns true = .ok a' ↔
      (Renamable (labels a.data.dims) ns ∧ NoClash (labels a.data.dims) ns a.coords ∧ NoClash (labels a.data.dims) ns a.masks ∧
        NoClash (labels a.data.dims) ns a.attrs) ∧ a' = a.relabeled ns := by
  by_cases hr : Renamable (labels a.data.dims) ns
  · rw [array_rename ha hr true a']
    simp only [hr, true_and]
  · constructor
    · intro h
      refine absurd ?_ hr
      unfold DArray.renameDims Entry.renameDims View.renameDims at h
      cases hs : Sizes.renameDims a.data.view.dims ns true with
      | error e => rw [hs] at h; cases h
      | ok s => exact ((rename_strict ns ha.data.1.1).1 hs).1
    · exact fun h => absurd h.1.1 hr

/-- **C82** (data arrays, consistency). -/
theorem C82_array_ok (a : DArray) (ha : a.Ok) (ns : List (Dim × Dim)) (a' : DArray) (h : a.renameDims ns true = .ok a') : a'.Ok := by
  obtain ⟨⟨h1, h2, h3, h4⟩, rfl⟩ := (C82_array a ha ns a').1 h
  exact relabeled_Ok ha h1 h2 h3 h4

theorem relabeled_undo {ns : List (Dim × Dim)} {l : List Dim} {e : Entry} (hr : Renamable l ns) (hc : ∀ r ∈ ns, r.2 ∈ labels e.dims → r.2 ∈ l) :
    (e.relabeled ns).relabeled (undo ns) = e := by
  unfold Entry.relabeled
  dsimp only
  rw [show relabelDims (undo ns) (relabelDims ns e.view.dims) = e.view.dims from relabelDims_undo hr hc]

theorem relabelItems_undo {ns : List (Dim × Dim)} {l : List Dim} {d : SizedDict} (hr : Renamable l ns) (hc : NoClash l ns d) :
    relabelItems (undo ns) (relabelItems ns d.items) = d.items := by
  unfold relabelItems
  rw [List.map_map]
  conv => rhs; rw [← List.map_id d.items]
  refine List.map_congr_left fun p hp => ?_
  show (p.1, (p.2.relabeled ns).relabeled (undo ns)) = p
  rw [relabeled_undo hr (hc p hp)]

theorem noClash_undo {ns : List (Dim × Dim)} {l : List Dim} {d : SizedDict} {s : Sizes} {b : Bool} (hr : Renamable l ns) (hc : NoClash l ns d) :
    NoClash (l.map (relabel ns)) (undo ns) ⟨s, relabelItems ns d.items, b⟩ := by
  intro q hq r hr' hm
  obtain ⟨p, hp, rfl⟩ := List.mem_map.1 hq
  refine undo_clash hr (hc p hp) r hr' ?_
  rwa [← labels_relabel]

/-- **C82** (undo): renaming back, with the pairs swapped and in reverse order, is accepted and gives back the data, coords, masks and attrs. -/
theorem C82_array_back (a : DArray) (ha : a.Ok) (ns : List (Dim × Dim)) (a' : DArray) (h : a.renameDims ns true = .ok a') :
    a'.renameDims (undo ns) true = .ok ⟨a.data, ⟨a.data.dims, a.coords.items, false⟩, ⟨a.data.dims, a.masks.items, false⟩, ⟨a.data.dims, a.attrs.items, false⟩⟩ := by
  have hok := C82_array_ok a ha ns a' h
  obtain ⟨⟨h1, h2, h3, h4⟩, rfl⟩ := (C82_array a ha ns a').1 h
  have hl : labels (a.relabeled ns).data.dims = (labels a.data.dims).map (relabel ns) := labels_relabel ns _
  rw [C82_array _ hok, hl]
  refine ⟨⟨renamable_undo ns h1, noClash_undo h1 h2, noClash_undo h1 h3, noClash_undo h1 h4⟩, ?_⟩
  have e1 : (a.data.relabeled ns).relabeled (undo ns) = a.data := relabeled_undo h1 fun _ _ h => h
  have e2 : relabelDims (undo ns) (relabelDims ns a.data.dims) = a.data.dims := relabelDims_undo h1 fun _ _ h => h
  show _ = (⟨(a.data.relabeled ns).relabeled (undo ns), ⟨relabelDims (undo ns) (relabelDims ns a.data.dims), relabelItems (undo ns) (relabelItems ns a.coords.items), false⟩,
    ⟨relabelDims (undo ns) (relabelDims ns a.data.dims), relabelItems (undo ns) (relabelItems ns a.masks.items), false⟩,
    ⟨relabelDims (undo ns) (relabelDims ns a.data.dims), relabelItems (undo ns) (relabelItems ns a.attrs.items), false⟩⟩ : DArray)
  rw [e1, e2, relabelItems_undo h1 h2, relabelItems_undo h1 h3, relabelItems_undo h1 h4]

/-- **C82** (datasets): dims are renamed exactly if each pair replaces an existing dim by a new one and no label clashes with a dim that only a coord, or a mask or attr of
an item has. Then coords and items have the new labels and everything else is as before. -/
theorem C82_dataset (d : Dset) (hd : d.Ok) (ns : List (Dim × Dim)) (d' : Dset) :
    d.renameDims eq eqn ns = .ok d' ↔
      (Renamable (labels d.coords.sizes) ns ∧ NoClash (labels d.coords.sizes) ns d.coords ∧
        ∀ q ∈ d.items, NoClash (labels d.coords.sizes) ns q.2.masks ∧ NoClash (labels d.coords.sizes) ns q.2.attrs) ∧ d' = d.relabeled ns := by
  unfold Dset.renameDims
  by_cases hr : Renamable (labels d.coords.sizes) ns
  · have c1 := dict_rename (b := true) hd.coords hr
    have key := rename_items (eq := eq) (eqn := eqn) hr hd.coords.1 d.items
      (d := ⟨⟨relabelDims ns d.coords.sizes, relabelItems ns d.coords.items, false⟩, [], false, true⟩) rfl rfl rfl (by simpa using hd.names) hd.items d'
    simp only [bind, Except.bind]
    cases h1 : d.coords.renameDims ns true with
    | error err =>
      dsimp only
      constructor
      · intro h; cases h
      · rintro ⟨⟨-, g, -⟩, -⟩; rw [(c1 _).2 ⟨g, rfl⟩] at h1; cases h1
    | ok c =>
      obtain ⟨g, rfl⟩ := (c1 _).1 h1
      dsimp only
      rw [key]
      simp only [hr, g, true_and, List.nil_append]
      rfl
  · constructor
    · intro h
      refine absurd ?_ hr
      simp only [bind, Except.bind, SizedDict.renameDims] at h
      cases hs : Sizes.renameDims d.coords.sizes ns true with
      | error e => rw [hs] at h; cases h
      | ok s => exact ((rename_strict ns hd.coords.1.1).1 hs).1
    · exact fun h => absurd h.1.1 hr

/-- **C82** (datasets, consistency). -/
theorem C82_dataset_ok (d : Dset) (hd : d.Ok) (ns : List (Dim × Dim)) (d' : Dset) (h : d.renameDims eq eqn ns = .ok d') : d'.Ok := by
  obtain ⟨⟨h1, h2, h3⟩, rfl⟩ := (C82_dataset d hd ns d').1 h
  have key : ∀ q ∈ d.items, ((q.2.array).relabeled ns).Ok := fun q hq => by
    have hf := hd.items q hq
    have hr' : Renamable (labels q.2.array.data.dims) ns := (renamable_same hf.dims).2 h1
    exact relabeled_Ok (item_array_ok hf) hr' (fun p hp => nomatch hp) ((noClash_same hf.dims).2 (h3 q hq).1) ((noClash_same hf.dims).2 (h3 q hq).2)
  refine ⟨dict_rename_Ok hd.coords hd.coords.1 .rfl' h1 h2, ?_, ?_, fun _ => rfl, fun h => nomatch h⟩
  · show ((d.items.map fun q => (q.1, q.2.relabeled ns)).map Prod.fst).Nodup
    rw [List.map_map]
    exact hd.names
  · intro p hp
    obtain ⟨q, hq, rfl⟩ := List.mem_map.1 hp
    exact ⟨(key q hq).data, same_relabel (hd.items q hq).dims ns, (key q hq).masks, (key q hq).attrs⟩

theorem lookup_map_second {α β : Type} (f : α → β) (k : Dim) : ∀ l : List (Dim × α), lookupEntry (l.map fun q => (q.1, f q.2)) k = (lookupEntry l k).map f
  | [] => rfl
  | (k1, x) :: l => by
    simp only [List.map_cons, lookupEntry]
    split
    · rfl
    · exact lookup_map_second f k l

/-- **C82** (items): an item of the dataset with renamed dims is the item with renamed dims: data, coords, masks and attrs are the same. -/
theorem C82_item (d : Dset) (hd : d.Ok) (ns : List (Dim × Dim)) (d' : Dset) (h : d.renameDims eq eqn ns = .ok d') (name : Dim) (a : DArray) (ha : d.get name = .ok a) :
    ∃ b : DArray, a.renameDims ns true = .ok b ∧ d'.get name = .ok { b with coords := { b.coords with readonly := true } } := by
  have hok := C82_dataset_ok d hd ns d' h
  obtain ⟨⟨h1, h2, h3⟩, rfl⟩ := (C82_dataset d hd ns d').1 h
  have hmem : name ∈ names d := by
    unfold Dset.get at ha
    by_contra hn
    rw [lookup_none.2 hn] at ha
    cases ha
  obtain ⟨it, hit⟩ := mem_names.1 hmem
  have hf := hd.items _ (lookup_mem hit)
  have hit' : lookupEntry (d.relabeled ns).items name = some (it.relabeled ns) := by
    show lookupEntry (d.items.map fun q => (q.1, q.2.relabeled ns)) name = _
    rw [lookup_map_second, hit]; rfl
  rw [get_seen hok hit']
  obtain ⟨x, hx, hxo, -, -⟩ := get_of_mem hd hmem
  rw [hx] at ha
  cases ha
  rw [get_seen hd hit] at hx
  cases hx
  have hss : SameSizes it.data.dims d.coords.sizes := hf.dims
  refine ⟨_, (C82_array _ hxo ns _).2 ⟨⟨(renamable_same hss).2 h1, ?_, (noClash_same hss).2 (h3 _ (lookup_mem hit)).1,
    (noClash_same hss).2 (h3 _ (lookup_mem hit)).2⟩, rfl⟩, ?_⟩
  · refine (noClash_same hss).2 fun q hq => ?_
    obtain ⟨p, hp, rfl⟩ := List.mem_map.1 hq
    exact h2 p (List.mem_filter.1 hp).1
  · have e : seen (d.relabeled ns) = relabelItems ns (seen d) := by
      show ((d.coords.items.map fun q => (q.1, q.2.relabeled ns)).filter (itemAppliesTo (relabelDims ns d.coords.sizes))).map _ = _
      unfold seen relabelItems
      rw [List.filter_map, List.map_map, List.map_map]
      have : d.coords.items.filter (itemAppliesTo (relabelDims ns d.coords.sizes) ∘ fun q => (q.1, q.2.relabeled ns)) =
          d.coords.items.filter (itemAppliesTo d.coords.sizes) := by
        refine List.filter_congr fun q hq => ?_
        have hb : ∀ b1 b2 : Bool, (b1 = true ↔ b2 = true) → b1 = b2 := by decide
        refine hb _ _ ?_
        have hl : labels (q.2.relabeled ns).dims = (labels q.2.dims).map (relabel ns) := labels_relabel ns _
        simp only [Function.comp, itemAppliesTo, List.all_eq_true, contains_iff, hl, labels_relabel, List.forall_mem_map]
        exact forall_congr' fun x => forall_congr' fun hx => (relabel_mem ns h1 fun r hr' e => e ▸ h2 q hq r hr' (e ▸ hx)).1
      rw [this]
      rfl
    show _ = Except.ok (⟨it.data.relabeled ns, ⟨relabelDims ns it.data.dims, relabelItems ns (seen d), true⟩, _, _⟩ : DArray)
    rw [e]
    rfl

/-! ### Transposing -/

theorem entry_transpose {e : Entry} {order : List Dim} {e' : Entry} : e.transpose order = .ok e' ↔ ∃ v, e.view.transpose order = .ok v ∧ e' = { e with view := v } := by
  unfold Entry.transpose
  cases e.view.transpose order with
  | error err =>
    constructor
    · intro h; cases h
    · rintro ⟨_, h, _⟩; cases h
  | ok v =>
    constructor
    · intro h; cases h; exact ⟨v, rfl, rfl⟩
    · rintro ⟨_, h, rfl⟩; cases h; rfl

theorem transpose_same {v v' : View} {order : List Dim} (hw : v.WF) (h : v.transpose order = .ok v') : v'.WF ∧ SameSizes v'.dims v.dims := by
  obtain ⟨-, h2, -, -, -, h6, -⟩ := View.transpose_ok hw h
  exact ⟨h6, fun p => h2.mem_iff⟩

theorem array_transpose {a : DArray} {order : List Dim} (ha : a.Ok) {a' : DArray} : a.transpose order = .ok a' ↔
    ∃ v, a.data.view.transpose order = .ok v ∧
      a' = ⟨{ a.data with view := v }, ⟨v.dims, a.coords.items, false⟩, ⟨v.dims, a.masks.items, false⟩, ⟨v.dims, a.attrs.items, false⟩⟩ := by
  unfold DArray.transpose
  simp only [bind, Except.bind]
  cases h : a.data.transpose order with
  | error err =>
    constructor
    · intro h'; cases h'
    · rintro ⟨v, hv, -⟩
      rw [entry_transpose.2 ⟨v, hv, rfl⟩] at h
      cases h
  | ok e =>
    obtain ⟨v, hv, rfl⟩ := entry_transpose.1 h
    obtain ⟨hw, hs⟩ := transpose_same ha.data hv
    dsimp only
    have e : makeArrayFrom { a.data with view := v } a.coords a.masks a.attrs =
        .ok ⟨{ a.data with view := v }, ⟨v.dims, a.coords.items, false⟩, ⟨v.dims, a.masks.items, false⟩, ⟨v.dims, a.attrs.items, false⟩⟩ := by
      unfold makeArrayFrom
      have hdd : Entry.dims { a.data with view := v } = v.dims := rfl
      rw [hdd]
      rw [dict_setSizes (d := { a.coords with readonly := false }) ha.coords.1.1 hw.1 (ha.coords.2.trans hs.symm),
        dict_setSizes (d := { a.masks with readonly := false }) ha.masks.1.1 hw.1 (ha.masks.2.trans hs.symm),
        dict_setSizes (d := { a.attrs with readonly := false }) ha.attrs.1.1 hw.1 (ha.attrs.2.trans hs.symm)]
      rfl
    rw [e]
    constructor
    · intro h; cases h; exact ⟨v, hv, rfl⟩
    · rintro ⟨v', hv', rfl⟩
      rw [hv] at hv'; cases hv'; rfl

theorem dict_resized {d : SizedDict} {s : Sizes} (hd : d.Ok) (hs : WF s) (h : SameSizes d.sizes s) : (⟨s, d.items, false⟩ : SizedDict).Ok :=
  ⟨hs, hd.2.1, fun _ hp => hd.same h hp⟩

/-- **C82** (transposing, accepts): any permutation of the dims is accepted as new order, and nothing else; without order the dims are reversed. -/
theorem C82_transpose_accepts (a : DArray) (ha : a.Ok) (hi : Dim.invalid ∉ labels a.data.dims) (order : List Dim) :
    (∃ a', a.transpose order = .ok a') ↔ order = [] ∨ order.Perm (labels a.data.dims) := by
  have : (∃ a', a.transpose order = .ok a') ↔ ∃ v, a.data.view.transpose order = .ok v := by
    constructor
    · rintro ⟨a', h⟩; obtain ⟨v, hv, -⟩ := (array_transpose ha).1 h; exact ⟨v, hv⟩
    · rintro ⟨v, hv⟩; exact ⟨_, (array_transpose ha).2 ⟨v, hv, rfl⟩⟩
  rw [this]
  by_cases ho : order = []
  · subst ho
    obtain ⟨v, hv, -⟩ := C03_transpose_default a.data.view ha.data hi
    exact ⟨fun _ => .inl rfl, fun _ => ⟨v, hv⟩⟩
  · rw [C03_transpose_succeeds_iff a.data.view order ha.data hi ho]
    simp only [ho, false_or]

/-- **C82** (transposing): the dims of the data come in the requested order (reversed without one), every element is found at the same named coordinates, in the same
memory, and coords, masks and attrs stay as they are. -/
theorem C82_transpose_array (a : DArray) (ha : a.Ok) (order : List Dim) (a' : DArray) (h : a.transpose order = .ok a') :
    a'.Ok ∧ labels a'.data.dims = (if order = [] then (labels a.data.dims).reverse else order) ∧ SameSizes a'.data.dims a.data.dims ∧
    (∀ c, a'.data.view.addr c = a.data.view.addr c) ∧ a'.data.view.readonly = a.data.view.readonly ∧ a'.data.obj = a.data.obj ∧ a'.data.binned = a.data.binned ∧
    a'.coords.items = a.coords.items ∧ a'.masks.items = a.masks.items ∧ a'.attrs.items = a.attrs.items ∧
    a'.coords.readonly = false ∧ a'.masks.readonly = false ∧ a'.attrs.readonly = false := by
  obtain ⟨v, hv, rfl⟩ := (array_transpose ha).1 h
  obtain ⟨hw, hs⟩ := transpose_same ha.data hv
  obtain ⟨-, -, h3, h4⟩ := C03_transpose_elements a.data.view v order ha.data hv
  refine ⟨⟨hw, ⟨dict_resized ha.coords.1 hw.1 (ha.coords.2.trans hs.symm), .rfl'⟩, ⟨dict_resized ha.masks.1 hw.1 (ha.masks.2.trans hs.symm), .rfl'⟩,
    ⟨dict_resized ha.attrs.1 hw.1 (ha.attrs.2.trans hs.symm), .rfl'⟩⟩, (View.transpose_ok ha.data hv).1, hs, h3, h4, rfl, rfl, rfl, rfl, rfl, rfl, rfl, rfl⟩

/-- **C82** (transposing back): transposing to the order the dims had gives back data, coords, masks and attrs. -/
theorem C82_transpose_back (a : DArray) (ha : a.Ok) (order : List Dim) (a' : DArray) (h : a.transpose order = .ok a') :
    a'.transpose (labels a.data.dims) =
      .ok ⟨a.data, ⟨a.data.dims, a.coords.items, false⟩, ⟨a.data.dims, a.masks.items, false⟩, ⟨a.data.dims, a.attrs.items, false⟩⟩ := by
  have hok := (C82_transpose_array a ha order a' h).1
  obtain ⟨v, hv, rfl⟩ := (array_transpose ha).1 h
  exact (array_transpose hok).2 ⟨a.data.view, C03_transpose_back a.data.view v order ha.data hv, rfl⟩

theorem loop_first {ns : List Dim} {n : Dim} {f : Dim → Except Err DArray} {err : Err} (h : f n = .error err) :
    fill eq eqn invalidDset ((n :: ns).map fun n => (n, f n)) = .error err := by
  simp only [List.map_cons, fill, h]

/-- **C82** (transposing datasets): a dataset with items is transposed exactly if each item can be; the result consists of the transposed items, with the coords the items
have. Partial: coords the items do not have, and all coords if there are no items, are lost (`C82_transpose_loses`). -/
theorem C82_transpose_dataset_partial (hr : ∀ x, eqn x x = true) (d : Dset) (hd : d.Ok) (hi : Dim.invalid ∉ labels d.coords.sizes) (hne : d.items ≠ []) (order : List Dim) :
    ((∃ d', d.transpose eq eqn order = .ok d') ↔ order = [] ∨ order.Perm (labels d.coords.sizes)) ∧
    ∀ d', d.transpose eq eqn order = .ok d' →
      ∃ r : Dim → DArray, (∀ n ∈ names d, ∃ a, d.get n = .ok a ∧ a.transpose order = .ok (r n)) ∧ ConsistsOf d' (names d) r ∧
        ∀ k, lookupEntry d'.coords.items k = visible d k := by
  have hform : d.transpose eq eqn order = (fill eq eqn invalidDset ((names d).map fun n => (n, do DArray.transpose (← d.get n) order)) >>= fun r => pure (orEmpty r)) := by
    unfold Dset.transpose names
    rw [List.map_map]
    rfl
  have hper : ∀ {s : Sizes}, WF s → SameSizes s d.coords.sizes → (order.Perm (labels s) ↔ order.Perm (labels d.coords.sizes)) := fun hw hs => by
    have : (labels _).Perm (labels d.coords.sizes) := (List.perm_ext_iff_of_nodup hw.1 hd.coords.1.1).2 hs.labels
    exact ⟨fun h => h.trans this, fun h => h.trans this.symm⟩
  have hitem : ∀ n ∈ names d, ∃ x, d.get n = .ok x ∧ x.Ok ∧ x.coords.items = seen d ∧ SameSizes x.data.dims d.coords.sizes ∧
      ((∃ a', x.transpose order = .ok a') ↔ order = [] ∨ order.Perm (labels d.coords.sizes)) := fun n hn => by
    obtain ⟨x, h1, h2, h3, h4⟩ := get_of_mem hd hn
    refine ⟨x, h1, h2, h3, h4, ?_⟩
    rw [C82_transpose_accepts x h2 (fun h => hi ((h4.labels _).1 h)), hper h2.data.1 h4]
  have hex : (order = [] ∨ order.Perm (labels d.coords.sizes)) → ∃ r : Dim → DArray, (∀ n ∈ names d, ∃ a, d.get n = .ok a ∧ a.transpose order = .ok (r n)) := fun ho => by
    have : ∀ n, ∃ r : DArray, n ∈ names d → ∃ a, d.get n = .ok a ∧ a.transpose order = .ok r := fun n => by
      by_cases hn : n ∈ names d
      · obtain ⟨x, h1, -, -, -, h5⟩ := hitem n hn
        obtain ⟨a', h⟩ := h5.2 ho
        exact ⟨a', fun _ => ⟨x, h1, h⟩⟩
      · exact ⟨⟨⟨⟨[], [], 0, false⟩, 0, true, false⟩, ⟨[], [], false⟩, ⟨[], [], false⟩, ⟨[], [], false⟩⟩, fun h => absurd h hn⟩
    choose r hr' using this
    exact ⟨r, hr'⟩
  have hall : (order = [] ∨ order.Perm (labels d.coords.sizes)) → ∃ d', d.transpose eq eqn order = .ok d' ∧
      ∃ r : Dim → DArray, (∀ n ∈ names d, ∃ a, d.get n = .ok a ∧ a.transpose order = .ok (r n)) ∧ ConsistsOf d' (names d) r ∧
        ∀ k, lookupEntry d'.coords.items k = visible d k := fun ho => by
    obtain ⟨r, hrr⟩ := hex ho
    have hfr : ∀ n ∈ names d, (do DArray.transpose (← d.get n) order) = Except.ok (r n) := fun n hn => by
      obtain ⟨a, h1, h2⟩ := hrr n hn
      rw [h1]; exact h2
    obtain ⟨d', h1, h2, -⟩ := loop_ok (eq := eq) hr hd.names (fun n => do DArray.transpose (← d.get n) order) (S := d.coords.sizes) (u := .ok (seen d))
      (fun n hn r' hr' => by
        obtain ⟨x, g1, g2, g3, g4, -⟩ := hitem n hn
        rw [g1] at hr'
        have ht := C82_transpose_array x g2 order r' hr'
        exact ⟨ht.1, ht.2.2.1.trans g4, by rw [ht.2.2.2.2.2.2.2.1, g3]⟩) r hfr
    refine ⟨orEmpty d', by rw [hform]; show (fill eq eqn invalidDset ((names d).map _) >>= _) = _; rw [show fill eq eqn invalidDset ((names d).map fun n => (n, do DArray.transpose (← d.get n) order)) = .ok d' from h1]; rfl,
      r, hrr, h2, fun k => ?_⟩
    obtain ⟨p, hp⟩ := List.exists_mem_of_ne_nil _ hne
    have hn : p.1 ∈ names d := List.mem_map.2 ⟨p, hp, rfl⟩
    rw [h2.coords p.1 hn k, ← lookup_seen hd k]
    obtain ⟨a, g1, g2⟩ := hrr _ hn
    obtain ⟨x, k1, k2, k3, -⟩ := hitem _ hn
    rw [g1] at k1; cases k1
    rw [(C82_transpose_array a k2 order _ g2).2.2.2.2.2.2.2.1, k3]
  have hiff : (∃ d', d.transpose eq eqn order = .ok d') ↔ order = [] ∨ order.Perm (labels d.coords.sizes) := by
    refine ⟨fun h => ?_, fun ho => (hall ho).imp fun _ h => h.1⟩
    obtain ⟨d', h⟩ := h
    cases hl : names d with
    | nil => exact absurd (List.map_eq_nil_iff.1 hl) hne
    | cons n ns =>
      obtain ⟨x, g1, g2, g3, g4, g5⟩ := hitem n (by rw [hl]; simp)
      refine g5.1 ?_
      cases hx : x.transpose order with
      | ok a => exact ⟨a, rfl⟩
      | error err =>
        rw [hform, hl, loop_first (f := fun n => do DArray.transpose (← d.get n) order) (err := err) (by rw [g1]; exact hx)] at h
        cases h
  refine ⟨hiff, fun d' h => ?_⟩
  obtain ⟨d'', h1, h2⟩ := hall (hiff.1 ⟨d', h⟩)
  rw [h] at h1; cases h1
  exact h2

/-! ### Examples -/

private def tVar (obj : Nat) : Entry := ⟨⟨[(2, 3), (3, 2)], [2, 1], 0, false⟩, obj, true, false⟩
/-- Bin edges for dim 2, and the edges of a single bin of dim 5, which is gone. -/
private def tCoords : List (Dim × Entry) := [(2, dsVar 10 2 4), (5, dsVar 40 5 2)]
private def tSizes : Sizes := [(2, 3), (3, 2)]
private def tArr : DArray := ⟨tVar 1, ⟨tSizes, tCoords, false⟩, ⟨tSizes, [(9, dsVar 21 3 2)], false⟩, ⟨tSizes, [], false⟩⟩
private def tDset : Dset := ⟨⟨tSizes, tCoords, false⟩, [(7, ⟨tVar 1, ⟨tSizes, [(9, dsVar 21 3 2)], false⟩, ⟨tSizes, [], false⟩⟩)], false, true⟩
private def tEmpty : Dset := { tDset with items := [] }

private theorem tWF : WF tSizes := by simp [tSizes, Sizes.WF, labels]
private theorem tFits {d : Dim} {n : Int} (h : (d, n) = (2, 4) ∨ (d, n) = (5, 2) ∨ (d, n) = (3, 2)) : Fits tSizes [(d, n)] := by
  refine ⟨d, ?_, ?_⟩
  · simp +contextual
  · rcases h with h | h | h <;> cases h <;> simp [tSizes]
private theorem tCoords_ok : (⟨tSizes, tCoords, false⟩ : SizedDict).Ok :=
  ⟨tWF, by decide, fun p hp => by
    rcases List.mem_cons.1 hp with rfl | hp
    · exact ⟨dsVar_wf _ _ _ (by decide), rfl, tFits (.inl rfl)⟩
    rw [List.mem_singleton.1 hp]
    exact ⟨dsVar_wf _ _ _ (by decide), rfl, tFits (.inr (.inl rfl))⟩⟩
private theorem tArr_ok : tArr.Ok :=
  ⟨by simp [tArr, tVar, View.WF, Sizes.WF, labels], ⟨tCoords_ok, .rfl'⟩,
    ⟨⟨tWF, by decide, fun p hp => by rw [List.mem_singleton.1 hp]; exact ⟨dsVar_wf _ _ _ (by decide), rfl, tFits (.inr (.inr rfl))⟩⟩, .rfl'⟩,
    ⟨⟨tWF, by decide, fun p hp => nomatch hp⟩, .rfl'⟩⟩
private theorem tDset_ok : tDset.Ok :=
  ⟨tCoords_ok, by decide, fun p hp => by rw [List.mem_singleton.1 hp]; exact ⟨tArr_ok.data, .rfl', tArr_ok.masks, tArr_ok.attrs⟩, by decide, by decide⟩

/-- Two dims swap their names, with the help of a third. -/
private def tSwap : List (Dim × Dim) := [(2, 8), (3, 2), (8, 3)]
example : tArr.renameDims tSwap true = .ok (tArr.relabeled tSwap) ∧ (tArr.relabeled tSwap).data.dims = [(3, 3), (2, 2)] ∧
    (tArr.relabeled tSwap).coords.items.map (fun q => (q.1, q.2.dims)) = [(2, [(3, 4)]), (5, [(5, 2)])] := by decide
/-- A name that is taken, a dim that does not exist, and a dim that only a coord has. -/
example : tArr.renameDims [(2, 3)] true = .error .dimension ∧ tArr.renameDims [(4, 8)] true = .error .dimension ∧ tArr.renameDims [(2, 5)] true = .error .dimension := by decide
example := C82_array tArr tArr_ok tSwap (tArr.relabeled tSwap)
example := C82_array_ok tArr tArr_ok tSwap (tArr.relabeled tSwap) (by decide)
example := C82_array_back tArr tArr_ok tSwap (tArr.relabeled tSwap) (by decide)
example : undo tSwap = [(3, 8), (2, 3), (8, 2)] := rfl
example : tDset.renameDims dsEq dsEq tSwap = .ok (tDset.relabeled tSwap) := by decide
example := C82_dataset (eq := dsEq) (eqn := dsEq) tDset tDset_ok tSwap (tDset.relabeled tSwap)
example := C82_dataset_ok (eq := dsEq) (eqn := dsEq) tDset tDset_ok tSwap (tDset.relabeled tSwap) (by decide)
example := C82_item (eq := dsEq) (eqn := dsEq) tDset tDset_ok tSwap (tDset.relabeled tSwap) (by decide) 7 _ rfl
example := C82_transpose_accepts tArr tArr_ok (by decide) [3, 2]
private def tArrT : DArray := ((tArr.transpose [3, 2]).toOption).getD tArr
example : tArrT.data = ⟨⟨[(3, 2), (2, 3)], [1, 2], 0, false⟩, 1, true, false⟩ := by decide
example := C82_transpose_array tArr tArr_ok [3, 2] tArrT (by decide)
example := C82_transpose_back tArr tArr_ok [3, 2] tArrT (by decide)
example := C82_transpose_dataset_partial (eq := dsEq) (eqn := dsEq) (fun x => by simp [dsEq]) tDset tDset_ok (by decide) (by decide) [3, 2]

/-- **C82** fails for coords of datasets: transposing loses the edges of a bin that has been selected, and all coords (and the dims) if there are no items. -/
theorem C82_transpose_loses : ∃ d e d' e' : Dset, d.Ok ∧ e.Ok ∧ e.items = [] ∧ d.transpose dsEq dsEq [3, 2] = .ok d' ∧ e.transpose dsEq dsEq [3, 2] = .ok e' ∧
    (lookupEntry d.coords.items 5).isSome ∧ lookupEntry d'.coords.items 5 = none ∧ (lookupEntry e.coords.items 2).isSome ∧ e'.coords.items = [] ∧ e'.coords.sizes = [] :=
  ⟨tDset, tEmpty, ((tDset.transpose dsEq dsEq [3, 2]).toOption).getD tDset, ((tEmpty.transpose dsEq dsEq [3, 2]).toOption).getD tDset, tDset_ok,
    ⟨tCoords_ok, by decide, fun p hp => (nomatch hp), by decide, by decide⟩, rfl, by decide, by decide, by decide, by decide, by decide, by decide, by decide⟩

end Scipp.Props
