import Verif.Lemmas.Squeeze
/-!
# C80: squeezing removes dims of length 1 and nothing else

`squeezed dims sel` are the dims to be removed: those asked for, or else all dims of length 1.
-/
namespace Scipp.Props
open Sizes

theorem dims_cases (dims : Dims) (hw : WF dims) (sel : Option (List Dim)) :
    ((∀ d ∈ squeezed dims sel, (d, 1) ∈ dims) → View.dimsForSqueezing dims sel = .ok (squeezed dims sel)) ∧
    ((¬ ∀ d ∈ squeezed dims sel, (d, 1) ∈ dims) → ∃ e, View.dimsForSqueezing dims sel = .error e) := by
  cases sel with
  | some l => exact dimsForSqueezing_some hw l
  | none =>
    refine ⟨fun _ => dimsForSqueezing_none hw, fun h => absurd (fun d hd => ?_) h⟩
    obtain ⟨⟨d', n⟩, hp, rfl⟩ := List.mem_map.1 hd
    have := List.mem_filter.1 hp
    have h1 : n = 1 := by simpa using this.2
    exact h1 ▸ this.1

/-- **C80** (variables): squeezing succeeds exactly if every dim asked for is there with length 1 and none is given twice. The result has the other dims in the same order, and
its elements are the elements of the input. -/
theorem C80_variable (v : View) (sel : Option (List Dim)) (hw : v.WF) :
    ((∃ v', v.squeeze sel = .ok v') ↔ (squeezed v.dims sel).Nodup ∧ ∀ d ∈ squeezed v.dims sel, (d, 1) ∈ v.dims) ∧
    ∀ v', v.squeeze sel = .ok v' → v'.WF ∧ SqueezedTo (squeezed v.dims sel) v v' := by
  obtain ⟨h1, h2⟩ := dims_cases v.dims hw.1 sel
  by_cases hd : ∀ d ∈ squeezed v.dims sel, (d, 1) ∈ v.dims
  · have he : v.squeeze sel = (squeezed v.dims sel).foldlM (fun v d => v.slice (at0 d)) v := by
      unfold View.squeeze
      rw [h1 hd]
      rfl
    rw [he]
    refine ⟨⟨fun ⟨v', h⟩ => ⟨(view_fold _ hw h).1, hd⟩, fun h => ?_⟩, fun v' h => ?_⟩
    · obtain ⟨v', g, -⟩ := view_fold_ok _ hw h.1 h.2
      exact ⟨v', g⟩
    · obtain ⟨v2, g, g2⟩ := view_fold_ok _ hw (view_fold _ hw h).1 hd
      rw [h] at g
      cases g
      exact g2
  · obtain ⟨e, he⟩ := h2 hd
    have : v.squeeze sel = .error e := by
      unfold View.squeeze
      rw [he]
      rfl
    rw [this]
    exact ⟨⟨fun h => (by obtain ⟨_, h⟩ := h; cases h), fun h => absurd h.2 hd⟩, fun _ h => (by cases h)⟩

/-- **C80** (volume): squeezing neither drops nor repeats elements. -/
theorem C80_volume (v v' : View) (sel : Option (List Dim)) (hw : v.WF) (h : v.squeeze sel = .ok v') : Dims.volume v'.dims = Dims.volume v.dims := by
  rw [((C80_variable v sel hw).2 v' h).2.1]
  generalize squeezed v.dims sel = ds
  generalize v.dims = l
  induction l with
  | nil => rfl
  | cons p l ih =>
    rw [List.filter_cons]
    split
    · rw [volume_cons, volume_cons, ih]
    · rename_i hp
      simp only [decide_eq_true_eq, not_not] at hp
      rw [volume_cons, hp.2, ih, one_mul]

/-- **C80** (order): the order in which the dims are given does not matter. -/
theorem C80_order (v v' : View) (l l' : List Dim) (hw : v.WF) (hp : l.Perm l') (h : v.squeeze (some l) = .ok v') :
    ∃ v'', v.squeeze (some l') = .ok v'' ∧ v''.dims = v'.dims ∧ ∀ c, v''.addr c = v'.addr c := by
  obtain ⟨h1, h2⟩ := C80_variable v (some l) hw
  obtain ⟨g1, g2⟩ := C80_variable v (some l') hw
  obtain ⟨k1, k2⟩ := h1.1 ⟨v', h⟩
  obtain ⟨v'', hv⟩ := g1.2 ⟨hp.nodup_iff.1 k1, fun d hd => k2 d (hp.mem_iff.2 hd)⟩
  refine ⟨v'', hv, ?_, fun c => ?_⟩
  · rw [(g2 v'' hv).2.1, (h2 v' h).2.1]
    refine List.filter_congr fun p _ => decide_eq_decide.2 ?_
    show ¬ (p.1 ∈ l' ∧ _) ↔ ¬ (p.1 ∈ l ∧ _)
    rw [hp.mem_iff]
  · rw [(g2 v'' hv).2.2, (h2 v' h).2.2]
    congr 1
    funext x
    have hm : x ∈ squeezed v.dims (some l') ↔ x ∈ squeezed v.dims (some l) := (hp.mem_iff (a := x)).symm
    by_cases hx : x ∈ squeezed v.dims (some l) ∧ (x, (1 : Int)) ∈ v.dims
    · rw [if_pos hx, if_pos ⟨hm.2 hx.1, hx.2⟩]
    · rw [if_neg hx, if_neg (fun h => hx ⟨hm.1 h.1, h.2⟩)]

/-- **C80** (all dims): without a selection squeezing succeeds, and no dim of length 1 is left. -/
theorem C80_all (v : View) (hw : v.WF) : ∃ v', v.squeeze none = .ok v' ∧ v'.dims = v.dims.filter (fun p => decide (p.2 ≠ 1)) := by
  obtain ⟨h1, h2⟩ := C80_variable v none hw
  have hs : squeezed v.dims none = (v.dims.filter fun p => p.2 = 1).map Prod.fst := rfl
  obtain ⟨v', hv⟩ := h1.2 ⟨by
      rw [hs]
      exact hw.1.1.sublist (List.filter_sublist.map _), fun d hd => by
      rw [hs] at hd
      obtain ⟨⟨d', n⟩, hp, rfl⟩ := List.mem_map.1 hd
      have := List.mem_filter.1 hp
      have h1 : n = 1 := by simpa using this.2
      exact h1 ▸ this.1⟩
  refine ⟨v', hv, ?_⟩
  rw [(h2 v' hv).2.1]
  refine List.filter_congr fun p hp => decide_eq_decide.2 (not_congr ⟨And.right, fun h => ⟨?_, h⟩⟩)
  rw [hs]
  exact List.mem_map_of_mem (List.mem_filter.2 ⟨hp, by simpa using h⟩)

/-- **C80** (data arrays): squeezing succeeds under the same condition as for the data. Data, coords, masks and attrs are squeezed in the same way; bin edges along a squeezed
dim keep both edges. A coord is aligned afterwards exactly if it was and still labels something. The result can be modified. -/
theorem C80_array (a : DArray) (sel : Option (List Dim)) (ha : a.Ok) (hi : Dim.invalid ∉ labels a.data.dims)
    (hc : ∀ q ∈ a.coords.items, Dim.invalid ∉ labels q.2.dims) :
    ((∃ a', a.squeeze sel = .ok a') ↔ (squeezed a.data.dims sel).Nodup ∧ ∀ d ∈ squeezed a.data.dims sel, (d, 1) ∈ a.data.dims) ∧
    ∀ a', a.squeeze sel = .ok a' → ArrayTo (squeezed a.data.dims sel) a a' ∧
      a'.coords.readonly = false ∧ a'.masks.readonly = false ∧ a'.attrs.readonly = false := by
  obtain ⟨h1, h2⟩ := dims_cases a.data.dims ha.data.1 sel
  by_cases hd : ∀ d ∈ squeezed a.data.dims sel, (d, 1) ∈ a.data.dims
  · have hi' : Dim.invalid ∉ squeezed a.data.dims sel := fun h => hi (mem_labels (hd _ h))
    have key : ∀ r, a.squeeze sel = .ok r ↔ ∃ b, (squeezed a.data.dims sel).foldlM (fun a d => a.slice (at0 d)) a = .ok b ∧
        r = ⟨b.data, { b.coords with readonly := false }, { b.masks with readonly := false }, { b.attrs with readonly := false }⟩ := by
      intro r
      unfold DArray.squeeze
      rw [h1 hd]
      simp only [bind, Except.bind]
      cases (squeezed a.data.dims sel).foldlM (fun a d => a.slice (at0 d)) a with
      | error e => simp
      | ok b =>
        simp only [pure, Except.pure, Except.ok.injEq, exists_eq_left']
        exact eq_comm
    refine ⟨⟨fun ⟨a', h⟩ => ?_, fun h => ?_⟩, fun a' h => ?_⟩
    · obtain ⟨b, hb, -⟩ := (key a').1 h
      exact ⟨(view_fold _ ha.data (array_fold_view _ hb)).1, hd⟩
    · obtain ⟨b, hb, -⟩ := array_fold _ ha h.1 hd hi' hc
      exact ⟨_, (key _).2 ⟨b, hb, rfl⟩⟩
    · obtain ⟨b, hb, rfl⟩ := (key a').1 h
      obtain ⟨b2, g1, g2⟩ := array_fold _ ha (view_fold _ ha.data (array_fold_view _ hb)).1 hd hi' hc
      rw [hb] at g1
      cases g1
      exact ⟨⟨⟨g2.ok.data, g2.ok.coords, g2.ok.masks, g2.ok.attrs⟩, g2.data, g2.coords, g2.masks, g2.attrs, g2.aligned, g2.masksAligned, g2.attrsAligned⟩, rfl, rfl, rfl⟩
  · obtain ⟨e, he⟩ := h2 hd
    have : a.squeeze sel = .error e := by
      unfold DArray.squeeze
      rw [he]
      rfl
    rw [this]
    exact ⟨⟨fun h => (by obtain ⟨_, h⟩ := h; cases h), fun h => absurd h.2 hd⟩, fun _ h => (by cases h)⟩

private def v3 : View := ⟨[(1, 1), (2, 3), (3, 1)], [3, 1, 7], 5, false⟩
private theorem v3_wf : v3.WF := by simp [v3, View.WF, Sizes.WF, labels]

example : v3.squeeze none = .ok ⟨[(2, 3)], [1], 5, false⟩ ∧ v3.squeeze (some [3]) = .ok ⟨[(1, 1), (2, 3)], [3, 1], 5, false⟩ ∧
    v3.squeeze (some [2]) = .error .dimension ∧ v3.squeeze (some [1, 1]) = .error .slice ∧ v3.squeeze (some [4]) = .error .dimension := by decide
example := C80_variable v3 (some [3, 1]) v3_wf
example := C80_volume v3 ⟨[(2, 3)], [1], 5, false⟩ none v3_wf (by decide)
example := C80_order v3 ⟨[(2, 3)], [1], 5, false⟩ [3, 1] [1, 3] v3_wf (List.Perm.swap 1 3 []) (by decide)
example := C80_all v3 v3_wf

/-- Coords: edges along the dim of length 1, a coord named after it, one along the other dim, one depending on both. -/
private def a4 : DArray := ⟨⟨⟨[(1, 1), (2, 3)], [3, 1], 0, false⟩, 0, true, false⟩,
  ⟨[(1, 1), (2, 3)], [(1, ⟨⟨[(1, 2)], [1], 0, false⟩, 1, true, false⟩), (5, ⟨⟨[(1, 1)], [1], 0, false⟩, 2, true, false⟩),
    (2, ⟨⟨[(2, 3)], [1], 0, false⟩, 3, true, false⟩), (6, ⟨⟨[(1, 1), (2, 3)], [3, 1], 0, false⟩, 4, true, false⟩)], false⟩,
  ⟨[(1, 1), (2, 3)], [(7, ⟨⟨[(1, 1), (2, 3)], [3, 1], 0, false⟩, 5, true, false⟩)], false⟩,
  ⟨[(1, 1), (2, 3)], [], false⟩⟩

example : a4.squeeze none = .ok ⟨⟨⟨[(2, 3)], [1], 0, false⟩, 0, true, false⟩,
  ⟨[(2, 3)], [(1, ⟨⟨[(1, 2)], [1], 0, false⟩, 1, false, false⟩), (5, ⟨⟨[], [], 0, false⟩, 2, false, false⟩),
    (2, ⟨⟨[(2, 3)], [1], 0, true⟩, 3, true, false⟩), (6, ⟨⟨[(2, 3)], [1], 0, false⟩, 4, true, false⟩)], false⟩,
  ⟨[(2, 3)], [(7, ⟨⟨[(2, 3)], [1], 0, false⟩, 5, true, false⟩)], false⟩,
  ⟨[(2, 3)], [], false⟩⟩ := by decide

private theorem a4_ok : a4.Ok := by
  have hw : Sizes.WF [((1 : Dim), (1 : Int)), (2, 3)] := by simp [WF, labels]
  refine ⟨by simp [a4, View.WF, Sizes.WF, labels], ⟨⟨hw, by decide, ?_⟩, .rfl'⟩, ⟨⟨hw, by decide, ?_⟩, .rfl'⟩, ⟨⟨hw, by decide, ?_⟩, .rfl'⟩⟩
  · intro p hp
    simp only [a4, List.mem_cons, List.not_mem_nil, or_false] at hp
    rcases hp with rfl | rfl | rfl | rfl
    · exact ⟨by simp [View.WF, Sizes.WF, labels], rfl, 1, by simp [Entry.dims], by simp [Entry.dims, a4]⟩
    · exact ⟨by simp [View.WF, Sizes.WF, labels], rfl, 0, by simp [Entry.dims, a4], by simp [Entry.dims]⟩
    · exact ⟨by simp [View.WF, Sizes.WF, labels], rfl, 0, by simp [Entry.dims, a4], by simp [Entry.dims]⟩
    · exact ⟨by simp [View.WF, Sizes.WF, labels], rfl, 0, by simp +contextual [Entry.dims, a4], by simp [Entry.dims]⟩
  · intro p hp
    simp only [a4, List.mem_cons, List.not_mem_nil, or_false] at hp
    subst hp
    exact ⟨by simp [View.WF, Sizes.WF, labels], rfl, 0, by simp +contextual [Entry.dims, a4], by simp [Entry.dims]⟩
  · intro p hp
    simp [a4] at hp

example := C80_array a4 none a4_ok (by decide) (by decide)

end Scipp.Props
