import Verif.Spec.Rename
import Verif.Lemmas.DatasetSlice
import Verif.Lemmas.DatasetOps
import Verif.Props.View
/-! Lemmas about renaming. -/
namespace Scipp
open Sizes Props

theorem relabel_cons (f t : Dim) (ns : List (Dim × Dim)) (x : Dim) : relabel ((f, t) :: ns) x = relabel ns (if x = f then t else x) := rfl

theorem relabel_append (a b : List (Dim × Dim)) (x : Dim) : relabel (a ++ b) x = relabel b (relabel a x) := by
  unfold relabel
  rw [List.foldl_append]

theorem labels_relabel (ns : List (Dim × Dim)) (d : Dims) : labels (relabelDims ns d) = (labels d).map (relabel ns) := by
  simp [labels, relabelDims, Function.comp_def]

theorem relabelDims_cons (f t : Dim) (ns : List (Dim × Dim)) (d : Dims) :
    relabelDims ((f, t) :: ns) d = relabelDims ns (d.map fun p => (if p.1 = f then t else p.1, p.2)) := by
  simp [relabelDims, Function.comp_def, relabel_cons]

theorem renamable_congr : ∀ (ns : List (Dim × Dim)) {l l' : List Dim}, (∀ x, x ∈ l ↔ x ∈ l') → (Renamable l ns ↔ Renamable l' ns)
  | [], _, _, _ => Iff.rfl
  | (f, t) :: ns, l, l', h => by
    simp only [Renamable, h]
    rw [renamable_congr ns (l := l.map fun x => if x = f then t else x) (l' := l'.map fun x => if x = f then t else x)]
    intro x
    simp only [List.mem_map, h]

theorem renamable_append : ∀ (a b : List (Dim × Dim)) (l : List Dim), Renamable l (a ++ b) ↔ Renamable l a ∧ Renamable (l.map (relabel a)) b
  | [], b, l => by
    have : l.map (relabel []) = l := by conv => rhs; rw [← List.map_id l]
                                        rfl
    rw [this]
    simp [Renamable]
  | (f, t) :: a, b, l => by
    have : l.map (relabel ((f, t) :: a)) = (l.map fun x => if x = f then t else x).map (relabel a) := by
      rw [List.map_map]; rfl
    rw [this]
    simp only [List.cons_append, Renamable, renamable_append a b, and_assoc]

theorem relabel_step (f t : Dim) (d : Dims) : labels (d.map fun p => (if p.1 = f then t else p.1, p.2)) = (labels d).map fun x => if x = f then t else x := by
  simp [labels, Function.comp_def]

theorem step_absent {f t : Dim} {d : Dims} (h : f ∉ labels d) : (d.map fun p => (if p.1 = f then t else p.1, p.2)) = d := by
  conv => rhs; rw [← List.map_id d]
  refine List.map_congr_left fun p hp => ?_
  have : p.1 ≠ f := fun e => h (e ▸ List.mem_map.2 ⟨p, hp, rfl⟩)
  simp [this]

/-- The dims of the data. -/
theorem rename_strict : ∀ (ns : List (Dim × Dim)) {s s' : Dims}, (labels s).Nodup →
    (renameDims s ns true = .ok s' ↔ Renamable (labels s) ns ∧ s' = relabelDims ns s)
  | [], s, s', _ => by
    simp only [renameDims, Except.ok.injEq, Renamable, true_and, relabelDims, relabel, List.foldl_nil, Prod.mk.eta, List.map_id']
    exact eq_comm
  | (f, t) :: ns, s, s', hn => by
    obtain ⟨h1, h2⟩ := C08_replace_one s f t hn
    obtain ⟨h3, h4⟩ := C08_rename_sequence s f t ns hn
    by_cases hok : f ∈ labels s ∧ (t = f ∨ t ∉ labels s)
    · obtain ⟨s1, hs1⟩ := h1.2 hok
      rw [h3 s1 hs1]
      have e := h2 s1 hs1
      have hn1 : (labels s1).Nodup := replaceKey_nodup' hs1 hn
      rw [rename_strict ns hn1, relabelDims_cons, e, relabel_step]
      simp only [Renamable, hok, true_and]
    · rw [h4 (by
        by_cases hf : f ∈ labels s
        · right
          by_contra hc
          exact hok ⟨hf, by by_cases hh : t = f; exact .inl hh; exact .inr fun hm => hc ⟨hh, hm⟩⟩
        · exact .inl hf)]
      constructor
      · intro h; cases h
      · rintro ⟨⟨g1, g2, -⟩, -⟩; exact absurd ⟨g1, g2⟩ hok
where
  replaceKey_nodup' {s s1 : Dims} {f t : Dim} (h : replaceKey s f t = .ok s1) (hn : (labels s).Nodup) : (labels s1).Nodup := by
    obtain ⟨h1, h2⟩ := C08_replace_one s f t hn
    obtain ⟨-, g⟩ := h1.1 ⟨s1, h⟩
    rw [h2 s1 h, relabel_step]
    refine (List.nodup_map_iff_inj_on hn).2 fun x hx y hy hxy => ?_
    split at hxy <;> split at hxy
    · simp_all
    · rcases g with rfl | g
      · simp_all
      · exact absurd (hxy ▸ hy) g
    · rcases g with rfl | g
      · simp_all
      · exact absurd (hxy ▸ hx) g
    · exact hxy

/-- Dims of entries, which may have a label the data does not have. -/
theorem rename_entry : ∀ (ns : List (Dim × Dim)) {l : List Dim} {d : Dims}, (labels d).Nodup → Renamable l ns → (∀ r ∈ ns, r.2 ∈ labels d → r.2 ∈ l) →
    renameDims d ns false = .ok (relabelDims ns d)
  | [], l, d, _, _, _ => by simp [renameDims, relabelDims, relabel]
  | (f, t) :: ns, l, d, hn, ⟨hf, ht, hr⟩, hc => by
    have key : ∀ r ∈ ns, r.2 ∈ labels (d.map fun p => (if p.1 = f then t else p.1, p.2)) → r.2 ∈ (l.map fun x => if x = f then t else x) := by
      intro r hr' hm
      rw [relabel_step] at hm
      obtain ⟨x, hx, hxe⟩ := List.mem_map.1 hm
      by_cases hxf : x = f
      · rw [if_pos hxf] at hxe
        exact List.mem_map.2 ⟨f, hf, by rw [if_pos rfl, hxe]⟩
      · rw [if_neg hxf] at hxe
        refine List.mem_map.2 ⟨x, ?_, by rw [if_neg hxf, hxe]⟩
        rw [hxe] at hx ⊢
        exact hc r (by simp [hr']) hx
    simp only [renameDims]
    by_cases hfd : f ∈ labels d
    · rw [if_pos (contains_iff.2 hfd)]
      obtain ⟨h1, h2⟩ := C08_replace_one d f t hn
      obtain ⟨d1, hd1⟩ := h1.2 ⟨hfd, by
        rcases ht with h | h
        · exact .inl h
        · exact .inr fun hm => h (hc (f, t) (by simp) hm)⟩
      have hn1 := rename_strict.replaceKey_nodup' hd1 hn
      rw [hd1]
      have e := h2 d1 hd1
      show renameDims d1 ns false = _
      rw [relabelDims_cons, ← e]
      refine rename_entry ns hn1 hr ?_
      rw [e]
      exact key
    · rw [if_neg (by rw [contains_iff]; exact hfd)]
      rw [if_neg (by decide), relabelDims_cons]
      rw [step_absent hfd] at key ⊢
      exact rename_entry ns hn hr key

/-- Labels outside of the data stay outside. -/
theorem relabel_mem : ∀ (ns : List (Dim × Dim)) {l : List Dim} {x : Dim}, Renamable l ns → (∀ r ∈ ns, r.2 = x → x ∈ l) →
    (relabel ns x ∈ l.map (relabel ns) ↔ x ∈ l) ∧ (x ∉ l → relabel ns x = x ∧ ∀ r ∈ ns, r.1 ≠ x)
  | [], l, x, _, _ => by simp [relabel]
  | (f, t) :: ns, l, x, ⟨hf, ht, hr⟩, hc => by
    have hm : l.map (relabel ((f, t) :: ns)) = (l.map fun x => if x = f then t else x).map (relabel ns) := by rw [List.map_map]; rfl
    rw [hm, relabel_cons]
    by_cases hx : x ∈ l
    · refine ⟨⟨fun _ => hx, fun _ => ?_⟩, fun h => absurd hx h⟩
      exact List.mem_map.2 ⟨_, List.mem_map.2 ⟨x, hx, rfl⟩, rfl⟩
    · have hxf : x ≠ f := fun e => hx (e ▸ hf)
      have hxt : x ≠ t := fun e => hx (hc (f, t) (by simp) e.symm)
      rw [if_neg hxf]
      have hx' : x ∉ (l.map fun x => if x = f then t else x) := by
        intro h
        obtain ⟨y, hy, hye⟩ := List.mem_map.1 h
        split at hye
        · exact hxt hye.symm
        · exact hx (hye ▸ hy)
      obtain ⟨g1, g2⟩ := relabel_mem ns hr (x := x) (fun r hr' he => absurd (hc r (by simp [hr']) he) hx)
      refine ⟨by rw [g1]; exact ⟨fun h => absurd h hx', fun h => absurd h hx⟩, fun _ => ⟨(g2 hx').1, ?_⟩⟩
      intro r hr'
      rcases List.mem_cons.1 hr' with rfl | hr'
      · exact fun e => hxf e.symm
      · exact (g2 hx').2 r hr'

theorem undo_cons (f t : Dim) (ns : List (Dim × Dim)) : undo ((f, t) :: ns) = undo ns ++ [(t, f)] := by simp [undo]

theorem relabel_undo : ∀ (ns : List (Dim × Dim)) {l : List Dim} {x : Dim}, Renamable l ns → (∀ r ∈ ns, r.2 = x → x ∈ l) →
    relabel (undo ns) (relabel ns x) = x
  | [], l, x, _, _ => rfl
  | (f, t) :: ns, l, x, ⟨hf, ht, hr⟩, hc => by
    rw [undo_cons, relabel_append, relabel_cons f t ns x]
    have : relabel (undo ns) (relabel ns (if x = f then t else x)) = if x = f then t else x := by
      refine relabel_undo ns hr fun r hr' he => ?_
      by_cases hxf : x = f
      · rw [if_pos hxf]
        exact List.mem_map.2 ⟨f, hf, if_pos rfl⟩
      · rw [if_neg hxf] at he ⊢
        exact List.mem_map.2 ⟨x, hc r (by simp [hr']) he, if_neg hxf⟩
    rw [this]
    show (if (if x = f then t else x) = t then f else if x = f then t else x) = x
    by_cases hxf : x = f
    · simp [hxf]
    · rw [if_neg hxf, if_neg]
      intro e
      rcases ht with h | h
      · exact hxf (e.trans h)
      · exact h (e ▸ hc (f, t) (by simp) e.symm)

theorem renamable_undo : ∀ (ns : List (Dim × Dim)) {l : List Dim}, Renamable l ns → Renamable (l.map (relabel ns)) (undo ns)
  | [], l, _ => trivial
  | (f, t) :: ns, l, ⟨hf, ht, hr⟩ => by
    have hm : l.map (relabel ((f, t) :: ns)) = (l.map fun x => if x = f then t else x).map (relabel ns) := by rw [List.map_map]; rfl
    rw [hm, undo_cons, renamable_append]
    refine ⟨renamable_undo ns hr, ?_⟩
    have : ((l.map fun x => if x = f then t else x).map (relabel ns)).map (relabel (undo ns)) = l.map fun x => if x = f then t else x := by
      rw [List.map_map]
      conv => rhs; rw [← List.map_id (l.map fun x => if x = f then t else x)]
      exact List.map_congr_left fun x hx => relabel_undo ns hr fun _ _ _ => hx
    rw [this]
    refine ⟨List.mem_map.2 ⟨f, hf, if_pos rfl⟩, ?_, trivial⟩
    by_cases htf : t = f
    · exact .inl htf.symm
    · refine .inr fun h => ?_
      obtain ⟨y, hy, hye⟩ := List.mem_map.1 h
      split at hye
      · exact htf hye
      · rename_i hne; exact hne hye

/-- Undoing does not clash with labels outside of the data. -/
theorem undo_clash {ns : List (Dim × Dim)} {l d : List Dim} (hr : Renamable l ns) (hc : ∀ r ∈ ns, r.2 ∈ d → r.2 ∈ l) :
    ∀ r ∈ undo ns, r.2 ∈ d.map (relabel ns) → r.2 ∈ l.map (relabel ns) := by
  intro r hr' hm
  obtain ⟨x, hx, hxe⟩ := List.mem_map.1 hm
  have hr'' : (r.2, r.1) ∈ ns := by
    simp only [undo, List.mem_reverse, List.mem_map] at hr'
    obtain ⟨q, hq, rfl⟩ := hr'
    exact hq
  obtain ⟨g1, g2⟩ := relabel_mem ns hr (x := x) (fun r hr' he => by rw [← he] at hx ⊢; exact hc r hr' hx)
  by_cases hxl : x ∈ l
  · exact List.mem_map.2 ⟨x, hxl, hxe⟩
  · obtain ⟨g3, g4⟩ := g2 hxl
    exact absurd (hxe.symm.trans g3) (g4 _ hr'')

theorem relabelDims_undo {ns : List (Dim × Dim)} {l : List Dim} {d : Dims} (hr : Renamable l ns) (hc : ∀ r ∈ ns, r.2 ∈ labels d → r.2 ∈ l) :
    relabelDims (undo ns) (relabelDims ns d) = d := by
  unfold relabelDims
  rw [List.map_map]
  conv => rhs; rw [← List.map_id d]
  refine List.map_congr_left fun p hp => ?_
  show (relabel (undo ns) (relabel ns p.1), p.2) = p
  rw [relabel_undo ns hr fun r hr' he => by rw [← he]; exact hc r hr' (he ▸ List.mem_map.2 ⟨p, hp, rfl⟩)]

/-! ### Dictionaries, data arrays -/

theorem entry_rename {sizes : Sizes} {ns : List (Dim × Dim)} {e : Entry} (he : e.view.WF) (hr : Renamable (labels sizes) ns) (e' : Entry) :
    renameEntry sizes ns e = .ok e' ↔ (∀ r ∈ ns, r.2 ∈ labels e.dims → r.2 ∈ labels sizes) ∧ e' = e.relabeled ns := by
  have hg : (ns.any (fun r => !(Sizes.contains sizes r.2) && Sizes.contains e.dims r.2) = true) ↔ ¬ ∀ r ∈ ns, r.2 ∈ labels e.dims → r.2 ∈ labels sizes := by
    simp only [List.any_eq_true, Bool.and_eq_true, Bool.not_eq_true', contains_false, contains_iff]
    constructor
    · rintro ⟨r, h1, h2, h3⟩ h
      exact h2 (h r h1 h3)
    · intro h
      push Not at h
      obtain ⟨r, h1, h2, h3⟩ := h
      exact ⟨r, h1, h3, h2⟩
  unfold renameEntry
  by_cases hc : ∀ r ∈ ns, r.2 ∈ labels e.dims → r.2 ∈ labels sizes
  · rw [if_neg (by rw [hg]; exact fun h => h hc)]
    unfold View.renameDims
    have := rename_entry ns he.1.1 hr hc
    rw [show Sizes.renameDims e.view.dims ns false = _ from this]
    constructor
    · intro h; cases h; exact ⟨hc, rfl⟩
    · rintro ⟨-, rfl⟩; rfl
  · rw [if_pos (hg.2 hc)]
    constructor
    · intro h; cases h
    · exact fun h => absurd h.1 hc

theorem map_rename {sizes : Sizes} {ns : List (Dim × Dim)} (hr : Renamable (labels sizes) ns) : ∀ (l l' : List (Dim × Entry)), (∀ q ∈ l, q.2.view.WF) →
    (renameMap sizes ns l = .ok l' ↔ (∀ q ∈ l, ∀ r ∈ ns, r.2 ∈ labels q.2.dims → r.2 ∈ labels sizes) ∧ l' = relabelItems ns l)
  | [], l', _ => by
    simp only [renameMap, Except.ok.injEq, relabelItems, List.map_nil, List.not_mem_nil, false_imp_iff, implies_true, true_and]
    exact eq_comm
  | (k, e) :: l, l', hw => by
    have h1 := entry_rename (sizes := sizes) (ns := ns) (hw (k, e) (by simp)) hr
    have h2 := fun l' => map_rename hr l l' (fun q hq => hw q (by simp [hq]))
    simp only [renameMap, List.mem_cons, forall_eq_or_imp]
    cases he : renameEntry sizes ns e with
    | error err =>
      dsimp only
      constructor
      · intro h; cases h
      · rintro ⟨⟨g, -⟩, -⟩
        rw [(h1 _).2 ⟨g, rfl⟩] at he
        cases he
    | ok e' =>
      obtain ⟨g1, rfl⟩ := (h1 _).1 he
      dsimp only
      cases hm : renameMap sizes ns l with
      | error err =>
        dsimp only
        constructor
        · intro h; cases h
        · rintro ⟨⟨-, g⟩, -⟩
          rw [(h2 _).2 ⟨g, rfl⟩] at hm
          cases hm
      | ok l1 =>
        obtain ⟨g2, rfl⟩ := (h2 _).1 hm
        dsimp only
        constructor
        · intro h; cases h; exact ⟨⟨g1, g2⟩, rfl⟩
        · rintro ⟨-, rfl⟩; rfl

theorem sizes_rename {s : Sizes} {ns : List (Dim × Dim)} (hs : WF s) (hr : Renamable (labels s) ns) (b : Bool) :
    Sizes.renameDims s ns b = .ok (relabelDims ns s) := by
  cases b with
  | true => exact (rename_strict ns hs.1).2 ⟨hr, rfl⟩
  | false => exact rename_entry ns hs.1 hr fun _ _ h => h

theorem dict_rename {d : SizedDict} {ns : List (Dim × Dim)} {b : Bool} (hd : d.Ok) (hr : Renamable (labels d.sizes) ns) (c : SizedDict) :
    d.renameDims ns b = .ok c ↔ NoClash (labels d.sizes) ns d ∧ c = ⟨relabelDims ns d.sizes, relabelItems ns d.items, false⟩ := by
  have h := fun l' => map_rename hr d.items l' (fun q hq => (hd.2.2 q hq).1)
  unfold SizedDict.renameDims
  rw [sizes_rename hd.1 hr]
  dsimp only
  cases hm : renameMap d.sizes ns d.items with
  | error err =>
    dsimp only
    constructor
    · intro h; cases h
    · rintro ⟨g, -⟩
      rw [(h _).2 ⟨g, rfl⟩] at hm
      cases hm
  | ok l =>
    obtain ⟨g, rfl⟩ := (h _).1 hm
    dsimp only
    constructor
    · intro h; cases h; exact ⟨g, rfl⟩
    · rintro ⟨-, rfl⟩; rfl

theorem same_relabel {s t : Sizes} (h : SameSizes s t) (ns : List (Dim × Dim)) : SameSizes (relabelDims ns s) (relabelDims ns t) := by
  intro p
  unfold relabelDims
  simp only [List.mem_map]
  exact exists_congr fun q => by rw [h q]

theorem relabel_WF {s : Sizes} {ns : List (Dim × Dim)} (hs : WF s) (hr : Renamable (labels s) ns) : WF (relabelDims ns s) :=
  renameDims_WF (sizes_rename hs hr true) hs

theorem noClash_same {s t : Sizes} (h : SameSizes s t) {ns : List (Dim × Dim)} {d : SizedDict} : NoClash (labels s) ns d ↔ NoClash (labels t) ns d := by
  unfold NoClash
  simp only [h.labels]

theorem renamable_same {s t : Sizes} (h : SameSizes s t) {ns : List (Dim × Dim)} : Renamable (labels s) ns ↔ Renamable (labels t) ns :=
  renamable_congr ns h.labels

/-- The dictionary of the renamed data array. -/
theorem dict_rename_Ok {d : SizedDict} {s : Sizes} {ns : List (Dim × Dim)} (hd : d.Ok) (hs : WF s) (hss : SameSizes d.sizes s) (hr : Renamable (labels s) ns)
    (hc : NoClash (labels s) ns d) : (⟨relabelDims ns s, relabelItems ns d.items, false⟩ : SizedDict).Ok := by
  have hr' := (renamable_same hss).2 hr
  have h := rename_Ok hd ((dict_rename (b := true) hd hr' _).2 ⟨(noClash_same hss).2 hc, rfl⟩)
  exact ⟨relabel_WF hs hr, h.2.1, fun p hp => h.same (same_relabel hss ns) hp⟩

theorem dict_setSizes {d : SizedDict} {s : Sizes} (hd : WF d.sizes) (hs : WF s) (hss : SameSizes d.sizes s) : d.setSizes s = .ok { d with sizes := s } := by
  unfold SizedDict.setSizes
  rw [if_pos]
  exact (includes_iff hs.1 hd.1).2 fun p hp => (hss p).1 hp

theorem array_rename {a : DArray} {ns : List (Dim × Dim)} (ha : a.Ok) (hr : Renamable (labels a.data.dims) ns) (b : Bool) (a' : DArray) :
    a.renameDims ns b = .ok a' ↔ (NoClash (labels a.data.dims) ns a.coords ∧ NoClash (labels a.data.dims) ns a.masks ∧ NoClash (labels a.data.dims) ns a.attrs) ∧
      a' = a.relabeled ns := by
  have hrc := (renamable_same ha.coords.2).2 hr
  have hrm := (renamable_same ha.masks.2).2 hr
  have hrt := (renamable_same ha.attrs.2).2 hr
  have hd : a.data.renameDims ns b = .ok (a.data.relabeled ns) := by
    unfold Entry.renameDims View.renameDims
    rw [show Sizes.renameDims a.data.view.dims ns b = _ from sizes_rename ha.data.1 hr b]
    rfl
  have c1 := dict_rename (b := false) ha.coords.1 hrc
  have c2 := dict_rename (b := false) ha.masks.1 hrm
  have c3 := dict_rename (b := false) ha.attrs.1 hrt
  rw [noClash_same ha.coords.2] at c1
  rw [noClash_same ha.masks.2] at c2
  rw [noClash_same ha.attrs.2] at c3
  have hw := relabel_WF ha.data.1 hr
  unfold DArray.renameDims
  rw [hd]
  simp only [bind, Except.bind]
  cases h1 : a.coords.renameDims ns false with
  | error err =>
    dsimp only
    constructor
    · intro h; cases h
    · rintro ⟨⟨g, -⟩, -⟩; rw [(c1 _).2 ⟨g, rfl⟩] at h1; cases h1
  | ok c =>
    obtain ⟨g1, rfl⟩ := (c1 _).1 h1
    dsimp only
    cases h2 : a.masks.renameDims ns false with
    | error err =>
      dsimp only
      constructor
      · intro h; cases h
      · rintro ⟨⟨-, g, -⟩, -⟩; rw [(c2 _).2 ⟨g, rfl⟩] at h2; cases h2
    | ok m =>
      obtain ⟨g2, rfl⟩ := (c2 _).1 h2
      dsimp only
      cases h3 : a.attrs.renameDims ns false with
      | error err =>
        dsimp only
        constructor
        · intro h; cases h
        · rintro ⟨⟨-, -, g⟩, -⟩; rw [(c3 _).2 ⟨g, rfl⟩] at h3; cases h3
      | ok t =>
        obtain ⟨g3, rfl⟩ := (c3 _).1 h3
        dsimp only
        have e : DatasetOps.makeArrayFrom (a.data.relabeled ns) ⟨relabelDims ns a.coords.sizes, relabelItems ns a.coords.items, false⟩
            ⟨relabelDims ns a.masks.sizes, relabelItems ns a.masks.items, false⟩ ⟨relabelDims ns a.attrs.sizes, relabelItems ns a.attrs.items, false⟩ =
            .ok (a.relabeled ns) := by
          unfold DatasetOps.makeArrayFrom
          have hdd : (a.data.relabeled ns).dims = relabelDims ns a.data.dims := rfl
          rw [hdd]
          rw [dict_setSizes (relabel_WF ha.coords.1.1 hrc) hw (same_relabel ha.coords.2 ns), dict_setSizes (relabel_WF ha.masks.1.1 hrm) hw (same_relabel ha.masks.2 ns),
            dict_setSizes (relabel_WF ha.attrs.1.1 hrt) hw (same_relabel ha.attrs.2 ns)]
          rfl
        rw [e]
        constructor
        · intro h; cases h; exact ⟨⟨g1, g2, g3⟩, rfl⟩
        · rintro ⟨-, rfl⟩; rfl

theorem relabeled_Ok {a : DArray} {ns : List (Dim × Dim)} (ha : a.Ok) (hr : Renamable (labels a.data.dims) ns) (hc : NoClash (labels a.data.dims) ns a.coords)
    (hm : NoClash (labels a.data.dims) ns a.masks) (ht : NoClash (labels a.data.dims) ns a.attrs) : (a.relabeled ns).Ok :=
  ⟨⟨relabel_WF ha.data.1 hr, by
      show a.data.view.strides.length = (relabelDims ns a.data.view.dims).length
      unfold relabelDims
      rw [List.length_map]
      exact ha.data.2.1, ha.data.2.2⟩,
    ⟨dict_rename_Ok ha.coords.1 ha.data.1 ha.coords.2 hr hc, .rfl'⟩, ⟨dict_rename_Ok ha.masks.1 ha.data.1 ha.masks.2 hr hm, .rfl'⟩,
    ⟨dict_rename_Ok ha.attrs.1 ha.data.1 ha.attrs.2 hr ht, .rfl'⟩⟩

/-! ### Datasets -/

theorem rename_items {eq eqn : Entry → Entry → Bool} {ns : List (Dim × Dim)} {sizes : Sizes} (hr : Renamable (labels sizes) ns) (hw : WF sizes) :
    ∀ (l : List (Dim × DItem)) {d : Dset}, d.readonly = false → d.valid = true → d.coords.sizes = relabelDims ns sizes →
    ((d.items.map Prod.fst) ++ l.map Prod.fst).Nodup → (∀ q ∈ l, q.2.Fits sizes) → ∀ d',
    (Dset.renameItems eq eqn ns d l = .ok d' ↔ (∀ q ∈ l, NoClash (labels sizes) ns q.2.masks ∧ NoClash (labels sizes) ns q.2.attrs) ∧
      d' = { d with items := d.items ++ l.map fun q => (q.1, q.2.relabeled ns) })
  | [], d, _, _, _, _, _, d' => by
    simp only [Dset.renameItems, Except.ok.injEq, List.not_mem_nil, false_imp_iff, implies_true, true_and, List.map_nil, List.append_nil]
    exact eq_comm
  | (k, it) :: l, d, h1, h2, h3, h4, h5, d' => by
    have hf := h5 (k, it) (by simp)
    have hok := item_array_ok hf
    have hr' : Renamable (labels it.array.data.dims) ns := (renamable_same hf.dims).2 hr
    have hk : k ∉ d.items.map Prod.fst := fun hk => by
      rw [List.map_cons, List.nodup_append] at h4
      exact h4.2.2 k hk k (by simp) rfl
    have hmm : NoClash (labels it.array.data.dims) ns it.masks ↔ NoClash (labels sizes) ns it.masks := noClash_same hf.dims
    have hmt : NoClash (labels it.array.data.dims) ns it.attrs ↔ NoClash (labels sizes) ns it.attrs := noClash_same hf.dims
    have ar := fun a' => array_rename hok hr' false a'
    dsimp only at ar
    simp only [Dset.renameItems, List.mem_cons, forall_eq_or_imp]
    cases hx : it.array.renameDims ns false with
    | error err =>
      constructor
      · intro h; cases h
      · rintro ⟨⟨⟨g1, g2⟩, -⟩, -⟩
        rw [(ar _).2 ⟨⟨(fun q hq => nomatch hq), hmm.2 g1, hmt.2 g2⟩, rfl⟩] at hx
        cases hx
    | ok a' =>
      obtain ⟨⟨-, g1, g2⟩, rfl⟩ := (ar _).1 hx
      have hset := setDataArray_new eq eqn (d := d) h1 h2 hk (a := it.array.relabeled ns) rfl (by
        have hdd : (it.array.relabeled ns).data.dims = relabelDims ns it.data.dims := rfl
        rw [hdd, eqMap_iff (by rw [h3]; exact relabel_WF hw hr) (relabel_WF hf.data.1 ((renamable_same hf.dims).2 hr)), h3]
        exact same_relabel hf.dims.symm ns)
      simp only [bind, Except.bind]
      rw [hset]
      dsimp only
      rw [rename_items hr hw l (d := { d with items := d.items ++ [(k, (it.array.relabeled ns).item)] }) h1 h2 h3 (by simpa using h4)
        (fun q hq => h5 q (by simp [hq])) d']
      have hi : (it.array.relabeled ns).item = it.relabeled ns := rfl
      simp only [hi, List.append_assoc, List.singleton_append, List.map_cons]
      constructor
      · rintro ⟨g, e⟩; exact ⟨⟨⟨hmm.1 g1, hmt.1 g2⟩, g⟩, e⟩
      · rintro ⟨⟨-, g⟩, e⟩; exact ⟨g, e⟩

end Scipp
