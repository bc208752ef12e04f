import Verif.Lemmas.DropDim
import Verif.Lemmas.Squeeze
import Verif.Props.SizedDict
import Verif.Props.Dataset
import Verif.Props.Rename
/-!
C86: coords, masks and attrs of results of operations that drop a dim or change its extent.
-/
namespace Scipp.Props
open Sizes DatasetOps DropDim

/-- **C86** (what is kept): the result has exactly the coords, masks and attrs that do not depend on the dim; the coords and attrs are shared with the input, the masks are copies. It is a well-formed
data array. -/
theorem C86_kept (copy : Entry → Entry) (hc : IsCopy copy) (func : DArray → Dim → Except Err Entry) (a : DArray) (ha : a.Ok) (dim : Dim) (z : Entry) (hf : func a dim = .ok z) (hz : z.view.WF)
    (r : DArray) (h : applyAndDropDim copy func a dim = .ok r) : Dropped copy a dim z r := by
  obtain ⟨⟨h1, h2, h3⟩, rfl⟩ := (applyAndDropDim_iff hc ha hf hz r).1 h
  have fit : ∀ {d : SizedDict} (f : Entry → Entry), IsCopy f → d.Ok → (∀ p ∈ independent dim d.items, Fits z.dims p.2.dims) →
      (⟨z.dims, (independent dim d.items).map fun p => (p.1, f p.2), false⟩ : SizedDict).Ok := fun {d} f hf hd hh =>
    ⟨hz.1, copied_nodup (independent_nodup hd.2.1), fun p hp => by
      obtain ⟨q, hq, rfl⟩ := List.mem_map.1 hp
      obtain ⟨g1, g2, -⟩ := hd.2.2 q (mem_independent.1 hq).1
      exact ⟨hf.wf _ g1, (hf.binned _).trans g2, by rw [show (f q.2).dims = q.2.dims from hf.dims _]; exact hh q hq⟩⟩
  have hid : ∀ l : List (Dim × Entry), (l.map fun p => (p.1, id p.2)) = l := fun l => by simp
  have f1 := fit id ⟨fun _ h => h, fun _ => rfl, fun _ => rfl⟩ ha.coords.1 h1
  have f3 := fit id ⟨fun _ h => h, fun _ => rfl, fun _ => rfl⟩ ha.attrs.1 h3
  rw [hid] at f1 f3
  exact ⟨⟨hz, ⟨f1, .rfl'⟩, ⟨fit copy hc ha.masks.1 h2, .rfl'⟩, ⟨f3, .rfl'⟩⟩, rfl, rfl, rfl, rfl, rfl, rfl, rfl⟩

/-- **C86** (when it succeeds): exactly if everything that does not depend on the dim fits the new data. -/
theorem C86_succeeds_iff (copy : Entry → Entry) (hc : IsCopy copy) (func : DArray → Dim → Except Err Entry) (a : DArray) (ha : a.Ok) (dim : Dim) (z : Entry) (hf : func a dim = .ok z)
    (hz : z.view.WF) : (∃ r, applyAndDropDim copy func a dim = .ok r) ↔
      ∀ p ∈ a.coords.items ++ a.masks.items ++ a.attrs.items, dim ∉ labels p.2.dims → Fits z.dims p.2.dims := by
  constructor
  · rintro ⟨r, h⟩ p hp hd
    obtain ⟨⟨h1, h2, h3⟩, -⟩ := (applyAndDropDim_iff hc ha hf hz r).1 h
    rw [List.mem_append, List.mem_append] at hp
    rcases hp with (hp | hp) | hp
    · exact h1 p (mem_independent.2 ⟨hp, hd⟩)
    · exact h2 p (mem_independent.2 ⟨hp, hd⟩)
    · exact h3 p (mem_independent.2 ⟨hp, hd⟩)
  · intro h
    have hh : ∀ {l : List (Dim × Entry)}, (∀ p ∈ l, p ∈ a.coords.items ++ a.masks.items ++ a.attrs.items) → ∀ p ∈ independent dim l, Fits z.dims p.2.dims := fun hl p hp =>
      h p (hl p (mem_independent.1 hp).1) (mem_independent.1 hp).2
    exact ⟨_, (applyAndDropDim_iff hc ha hf hz _).2 ⟨⟨hh fun p hp => by simp [hp], hh fun p hp => by simp [hp], hh fun p hp => by simp [hp]⟩, rfl⟩⟩

/-- **C86** (reductions, `resize`): if the new data differs from the old only in the dim, which may be gone, the operation succeeds, whatever the coords, masks and attrs are. -/
theorem C86_succeeds (copy : Entry → Entry) (hc : IsCopy copy) (func : DArray → Dim → Except Err Entry) (a : DArray) (ha : a.Ok) (dim : Dim) (z : Entry) (hf : func a dim = .ok z)
    (hz : z.view.WF) (hs : ∀ p : Dim × Int, p.1 ≠ dim → (p ∈ z.dims ↔ p ∈ a.data.dims)) : ∃ r, applyAndDropDim copy func a dim = .ok r ∧ Dropped copy a dim z r := by
  have : ∃ r, applyAndDropDim copy func a dim = .ok r := by
    rw [C86_succeeds_iff copy hc func a ha dim z hf hz]
    intro p hp hd
    refine fits_other hs hd ?_
    rw [List.mem_append, List.mem_append] at hp
    rcases hp with (hp | hp) | hp
    · exact (ha.coords.1.same ha.coords.2 hp).2.2
    · exact (ha.masks.1.same ha.masks.2 hp).2.2
    · exact (ha.attrs.1.same ha.attrs.2 hp).2.2
  obtain ⟨r, h⟩ := this
  exact ⟨r, h, C86_kept copy hc func a ha dim z hf hz r h⟩

/-! ### All dims -/

/-- The array left after reducing along all dims: no dims, and the coords, masks and attrs that depend on none of the dims. -/
structure Scalar (copy : Entry → Entry) (a r : DArray) : Prop where
  ok : r.Ok
  dims : r.data.dims = []
  coords : r.coords.items = disjoint a.data.dims a.coords.items
  masks : r.masks.items = (disjoint a.data.dims a.masks.items).map fun p => (p.1, copy^[a.data.dims.length] p.2)
  attrs : r.attrs.items = disjoint a.data.dims a.attrs.items

private theorem length_filter_label {s : Dims} (hn : (labels s).Nodup) {d : Dim} (hd : d ∈ labels s) : (s.filter (·.1 ≠ d)).length + 1 = s.length := by
  induction s with
  | nil => simp [labels] at hd
  | cons p s ih =>
    simp only [labels, List.map_cons, List.nodup_cons] at hn
    by_cases h : p.1 = d
    · have : s.filter (·.1 ≠ d) = s := List.filter_eq_self.2 fun q hq => by
        have : q.1 ≠ d := fun e => hn.1 (by rw [h, ← e]; exact List.mem_map_of_mem hq)
        simpa using this
      rw [List.filter_cons, if_neg (by simpa using h), this, List.length_cons]
    · have hm : d ∈ labels s := by
        simp only [labels, List.map_cons, List.mem_cons] at hd
        rcases hd with hd | hd
        · exact absurd hd.symm h
        · exact hd
      rw [List.filter_cons, if_pos (by simpa using h), List.length_cons, List.length_cons, ih hn.2 hm]

private theorem inner_mem {s : Dims} (h : s ≠ []) : Dims.inner s ∈ labels s := by
  unfold Dims.inner
  rw [List.getLast?_eq_getLast_of_ne_nil h]
  exact List.mem_map_of_mem (List.getLast_mem h)

private theorem disjoint_step {s : Dims} {d : Dim} (hd : d ∈ labels s) (items : List (Dim × Entry)) : disjoint (s.filter (·.1 ≠ d)) (independent d items) = disjoint s items := by
  unfold disjoint independent
  rw [List.filter_filter]
  refine List.filter_congr fun p _ => ?_
  rw [← Bool.decide_and]
  refine decide_eq_decide.2 ⟨fun ⟨h1, h2⟩ x hx hm => ?_, fun h => ⟨fun x hx hm => ?_, fun hm => h d hm hd⟩⟩
  · by_cases e : x = d
    · exact h2 (e ▸ hx)
    · obtain ⟨n, hn⟩ := mem_of_labels hm
      exact h1 x hx (mem_labels (List.mem_filter.2 ⟨hn, by simpa using e⟩))
  · obtain ⟨n, hn⟩ := mem_of_labels hm
    exact h x hx (mem_labels (List.mem_filter.1 hn).1)

private theorem disjoint_nil (items : List (Dim × Entry)) : disjoint [] items = items := by
  unfold disjoint
  exact List.filter_eq_self.2 fun p _ => by simp [labels]

private theorem disjoint_map {s : Dims} {f : Entry → Entry} (hf : ∀ e, (f e).dims = e.dims) (l : List (Dim × Entry)) :
    disjoint s (l.map fun p => (p.1, f p.2)) = (disjoint s l).map fun p => (p.1, f p.2) := by
  unfold disjoint
  rw [List.filter_map]
  congr 1
  refine List.filter_congr fun p _ => ?_
  simp only [Function.comp, hf]

/-- **C86** (reductions of all dims): the result has no dims, and exactly the coords, masks and attrs that depend on none of the dims of the data. -/
theorem C86_all_dims (copy : Entry → Entry) (hc : IsCopy copy) (copyArray : DArray → DArray) (op : Entry → Dim → List (Dim × Entry) → Except Err Entry) (ho : Reduces op) (a : DArray) (ha : a.Ok)
    (hne : a.data.dims ≠ []) : ∃ r, reduceAll copyArray (reduce copy op) a = .ok r ∧ Scalar copy a r := by
  unfold reduceAll
  rw [if_neg hne]
  clear hne
  obtain ⟨n, hn⟩ : ∃ n, n = a.data.dims.length := ⟨_, rfl⟩
  rw [← hn]
  induction n generalizing a with
  | zero =>
    have h0 : a.data.dims = [] := List.length_eq_zero_iff.1 hn.symm
    refine ⟨a, rfl, ha, h0, ?_, ?_, ?_⟩ <;> rw [h0, disjoint_nil]
    simp
  | succ n ih =>
    have hne : a.data.dims ≠ [] := fun h => by rw [h] at hn; simp at hn
    unfold reduceLoop
    rw [if_neg hne]
    have hd := inner_mem hne
    obtain ⟨d, hdd⟩ : ∃ d, d = Dims.inner a.data.dims := ⟨_, rfl⟩
    rw [← hdd] at hd ⊢
    obtain ⟨z, hz, hw, hzd⟩ := ho a.data d a.masks.items ha.data hd
    obtain ⟨b, hb, hb'⟩ := C86_succeeds copy hc (fun a dim => op a.data dim a.masks.items) a ha d z hz hw (fun p hp => by
      rw [hzd, List.mem_filter]
      simp [hp])
    have hlen := length_filter_label ha.data.1.1 hd
    obtain ⟨r, hr, hr'⟩ := ih b hb'.ok (by rw [hb'.data, hzd]; exact Nat.succ.inj (hn.trans hlen.symm))
    refine ⟨r, by
      have : reduce copy op a d = .ok b := hb
      rw [this]; exact hr, hr'.ok, hr'.dims, ?_, ?_, ?_⟩
    · rw [hr'.coords, hb'.coords, hb'.data, hzd, disjoint_step hd]
    · rw [hr'.masks, hb'.masks, hb'.data, hzd, disjoint_map hc.dims, disjoint_step hd, List.map_map, ← hlen]
      rfl
    · rw [hr'.attrs, hb'.attrs, hb'.data, hzd, disjoint_step hd]

/-! ### New edges -/

private theorem edges_fit {dims : Dims} {dim : Dim} {m : Int} {e : Entry} (h : EdgesFor dims dim m e) (hm : (dim, m) ∈ dims) : Fits dims e.dims :=
  ⟨dim, fun d n hp hd => h.others (d, n) hp hd, fun n hn => .inr (.inl ⟨m, hm, by
    have h1 := at?_of_mem h.wf.1.1 hn
    rw [at?_of_mem h.wf.1.1 h.along] at h1
    injection h1 with h1
    exact h1.symm⟩)⟩

private theorem set_edges {d : SizedDict} (hd : d.Ok) (hr : d.readonly = false) {dims : Dims} {dim : Dim} {m : Int} {e : Entry} (hs : SameSizes d.sizes dims)
    (h : EdgesFor dims dim m e) (hm : (dim, m) ∈ dims) (hdiff : ∀ x, lookupEntry d.items dim = some x → x.dims ≠ e.dims) :
    d.set dim e = .ok { d with items := insertEntry d.items dim e } := by
  have hfit : Fits d.sizes e.dims := (edges_fit h hm).same hs.symm
  obtain ⟨d', h'⟩ := (insert_iff (key := dim) hd.1 hr h.wf).2 ⟨h.binned, hfit⟩
  obtain ⟨-, rfl⟩ := insert_ok h'
  unfold SizedDict.set
  cases hl : lookupEntry d.items dim with
  | none => exact h'
  | some x =>
    dsimp only
    rw [if_neg ?_]
    · exact h'
    · simp only [Entry.isSame, Bool.and_eq_true, decide_eq_true_eq, not_and]
      exact fun h1 => absurd h1.1.2 (hdiff x hl)

/-- **C86** (rebinning): coords, masks and attrs that depend on the dim are replaced by the new edges, the others are kept. -/
theorem C86_rebin (copy : Entry → Entry) (hc : IsCopy copy) (op : Entry → Dim → Entry → Entry → List (Dim × Entry) → Except Err Entry) (a : DArray) (ha : a.Ok) (dim : Dim) (old new : Entry) (m : Int)
    (ho : lookupEntry a.coords.items dim = some old) (z : Entry) (hf : op a.data dim old new a.masks.items = .ok z) (hz : z.view.WF)
    (hs : ∀ p : Dim × Int, p.1 ≠ dim → (p ∈ z.dims ↔ p ∈ a.data.dims)) (hm : (dim, m) ∈ z.dims) (hn : EdgesFor z.dims dim m new) :
    ∃ r, rebinArray copy op a dim new = .ok r ∧ r.Ok ∧ r.data = z ∧ CoordReplaced a.coords.items dim dim new r.coords ∧
      r.masks.items = (independent dim a.masks.items).map (fun p => (p.1, copy p.2)) ∧ r.attrs.items = independent dim a.attrs.items := by
  obtain ⟨b, hb, hb'⟩ := C86_succeeds copy hc (fun a dim => op a.data dim old new a.masks.items) a ha dim z hf hz hs
  have hset := set_edges hb'.ok.coords.1 hb'.writable.1 (hb'.data ▸ hb'.ok.coords.2) hn hm (fun x hx e => by
    rw [hb'.coords] at hx
    exact (mem_independent.1 (lookup_mem hx)).2 (by show dim ∈ labels x.dims; rw [e]; exact mem_labels hn.along))
  have hok := set_Ok hb'.ok.coords.1 hn.wf hset
  refine ⟨⟨b.data, { b.coords with items := insertEntry b.coords.items dim new }, b.masks, b.attrs⟩, ?_, ⟨hb'.ok.data, ⟨hok.1, hb'.ok.coords.2⟩, hb'.ok.masks, hb'.ok.attrs⟩, hb'.data, fun k => ?_,
    hb'.masks, hb'.attrs⟩
  · unfold rebinArray coordOf
    rw [ho]
    simp only [bind, Except.bind, hb, hset]
    rfl
  · rw [← hb'.coords]
    exact lookup_insert _ _ _ _

private theorem dimOf_labels {a : DArray} (ha : a.Ok) {dim ed : Dim} {e : Entry} (he : lookupEntry a.coords.items dim = some e) (hi : Dim.invalid ∉ labels e.dims)
    (h : LabelsDim a.data.dims dim e.dims ed) : a.coords.dimOf dim e = ed := by
  obtain ⟨h1, -, h3⟩ := ha.coords.1.2.2 _ (lookup_mem he)
  have hne : ed ≠ Dim.invalid := fun e' => hi (e' ▸ h.1)
  have := (unaligned_iff (key := dim) ha.coords.1.1 h1.1 h3 hi (p := at0 ed) hne (at0_ne_none ed)).2 ⟨rfl, (labelsDim_same ha.coords.2 _ _ _).2 h⟩
  unfold SizedDict.unalignedBySlice at this
  rw [if_neg (by rintro (h | h); exacts [at0_ne_none _ h, h rfl]), Bool.and_eq_true, decide_eq_true_eq] at this
  exact this.2

/-- **C86** (histograms): coords, masks and attrs that depend on the dim of the events are dropped, the others are kept, and there is a coord with the edges. Partial: a coord, mask or attr with dim `dim`
must depend on the dim of the events. This holds unless there are leftover edges of a dim the data does not have, see `C86_leftover_edges`. -/
theorem C86_histogram_partial (copy : Entry → Entry) (hc : IsCopy copy) (op : DArray → Dim → Entry → Except Err Entry) (a : DArray) (ha : a.Ok) (edges : Entry) (dim ed : Dim) (m : Int)
    (hi : ∀ p ∈ a.coords.items, Dim.invalid ∉ labels p.2.dims) (hin : Dims.inner edges.dims = dim) (he : EventsAlong a dim ed) (z : Entry) (hf : op a ed edges = .ok z) (hz : z.view.WF)
    (hs : ∀ p : Dim × Int, p ∈ z.dims ↔ (p ∈ a.data.dims ∧ p.1 ≠ ed) ∨ p = (dim, m)) (hn : EdgesFor z.dims dim m edges)
    (hl : ∀ p ∈ a.coords.items ++ a.masks.items ++ a.attrs.items, dim ∈ labels p.2.dims → ed ∈ labels p.2.dims) :
    ∃ r, histogramArray copy op a edges = .ok r ∧ r.Ok ∧ r.data = z ∧ CoordReplaced a.coords.items ed dim edges r.coords ∧
      r.masks.items = (independent ed a.masks.items).map (fun p => (p.1, copy p.2)) ∧ r.attrs.items = independent ed a.attrs.items := by
  have hev : eventDim a dim = .ok ed := by
    unfold eventDim
    rcases he with ⟨h, rfl⟩ | ⟨h, e, h1, h2, h3⟩
    · rw [if_pos h]
    · rw [if_neg (by simp [h]), if_neg ?_, h1]
      · dsimp only
        rw [dimOf_labels ha h1 (hi _ (lookup_mem h1)) h2]
      · unfold isHistogram
        rw [h1]
        cases hat : Sizes.at? a.data.dims dim with
        | error _ => simp
        | ok n =>
          dsimp only
          cases hat2 : Sizes.at? e.dims dim with
          | error _ => simp
          | ok k =>
            simp only [decide_eq_true_eq]
            rintro rfl
            exact h3 n (at?_ok_mem hat) (at?_ok_mem hat2)
  have hmz : (dim, m) ∈ z.dims := (hs _).2 (.inr rfl)
  have hex : ∃ b, applyAndDropDim copy (fun a ed => op a ed edges) a ed = .ok b := by
    rw [C86_succeeds_iff copy hc _ a ha ed z hf hz]
    intro p hp hd
    have hfit : Fits a.data.dims p.2.dims := by
      have hp' := hp
      rw [List.mem_append, List.mem_append] at hp'
      rcases hp' with (hp | hp) | hp
      · exact (ha.coords.1.same ha.coords.2 hp).2.2
      · exact (ha.masks.1.same ha.masks.2 hp).2.2
      · exact (ha.attrs.1.same ha.attrs.2 hp).2.2
    have h1 : Fits (a.data.dims.filter (·.1 ≠ ed)) p.2.dims := fits_other (fun q hq => by rw [List.mem_filter]; simp [hq]) hd hfit
    refine fits_other (dim := dim) (fun q hq => ?_) (fun h => hd (hl p hp h)) h1
    rw [hs, List.mem_filter]
    constructor
    · rintro (h | h)
      · exact ⟨h.1, by simpa using h.2⟩
      · exact absurd (by rw [h]) hq
    · rintro ⟨h, h'⟩
      exact .inl ⟨h, by simpa using h'⟩
  obtain ⟨b, hb⟩ := hex
  have hb' := C86_kept copy hc _ a ha ed z hf hz b hb
  have hset := set_edges hb'.ok.coords.1 hb'.writable.1 (hb'.data ▸ hb'.ok.coords.2) hn hmz (fun x hx' e => by
    rw [hb'.coords] at hx'
    obtain ⟨g1, g2⟩ := mem_independent.1 (lookup_mem hx')
    exact g2 (hl _ (by simp [g1]) (by show dim ∈ labels x.dims; rw [e]; exact mem_labels hn.along)))
  have hok := set_Ok hb'.ok.coords.1 hn.wf hset
  refine ⟨⟨b.data, { b.coords with items := insertEntry b.coords.items dim edges }, b.masks, b.attrs⟩, ?_, ⟨hb'.ok.data, ⟨hok.1, hb'.ok.coords.2⟩, hb'.ok.masks, hb'.ok.attrs⟩, hb'.data, fun k => ?_,
    hb'.masks, hb'.attrs⟩
  · unfold histogramArray
    rw [hin]
    simp only [bind, Except.bind, hev, hb, hset]
    rfl
  · rw [← hb'.coords]
    exact lookup_insert _ _ _ _

/-! ### Datasets -/

/-- **C86** (datasets): an operation that drops a dim or changes its extent, applied to a dataset with items, applies it to every item. The result consists of the results for the items, with those coords the items
have that do not depend on the dim. Partial: all coords are lost if there are no items (`C86_dataset_loses`), and coords the items do not have are lost in any case. -/
theorem C86_dataset_partial (eq eqn : Entry → Entry → Bool) (hr : ∀ x, eqn x x = true) (copy : Entry → Entry) (hc : IsCopy copy) (func : DArray → Dim → Except Err Entry) (dim : Dim) (d : Dset) (hd : d.Ok)
    (S : Sizes) (hS : ∀ p : Dim × Int, p.1 ≠ dim → (p ∈ S ↔ p ∈ d.coords.sizes))
    (hf : ∀ n a, d.get n = .ok a → ∃ z, func a dim = .ok z ∧ z.view.WF ∧ SameSizes z.dims S) (hne : d.items ≠ []) :
    ∃ d', applyToItems eq eqn (fun a => applyAndDropDim copy func a dim) d = .ok d' ∧
      ∃ r : Dim → DArray, ConsistsOf d' (names d) r ∧ (∀ n ∈ names d, ∃ a z, d.get n = .ok a ∧ func a dim = .ok z ∧ Dropped copy a dim z (r n)) ∧
        ∀ k, lookupEntry d'.coords.items k = (visible d k).filter fun e => decide (dim ∉ labels e.dims) := by
  have hitem : ∀ n ∈ names d, ∃ a z r, d.get n = .ok a ∧ func a dim = .ok z ∧ applyAndDropDim copy func a dim = .ok r ∧ Dropped copy a dim z r ∧ a.coords.items = seen d ∧
      SameSizes z.dims S := fun n hn => by
    obtain ⟨a, h1, h2, h3, h4⟩ := get_of_mem hd hn
    obtain ⟨z, g1, g2, g3⟩ := hf n a h1
    obtain ⟨r, k1, k2⟩ := C86_succeeds copy hc func a h2 dim z g1 g2 (fun p hp => by rw [g3 p, hS p hp, h4 p])
    exact ⟨a, z, r, h1, g1, k1, k2, h3, g3⟩
  have hex : ∃ r : Dim → DArray, ∀ n ∈ names d, ∃ a z, d.get n = .ok a ∧ func a dim = .ok z ∧ applyAndDropDim copy func a dim = .ok (r n) ∧ Dropped copy a dim z (r n) ∧
      a.coords.items = seen d ∧ SameSizes z.dims S := by
    have : ∀ n, ∃ r : DArray, n ∈ names d → ∃ a z, d.get n = .ok a ∧ func a dim = .ok z ∧ applyAndDropDim copy func a dim = .ok r ∧ Dropped copy a dim z r ∧
        a.coords.items = seen d ∧ SameSizes z.dims S := fun n => by
      by_cases hn : n ∈ names d
      · obtain ⟨a, z, r, h⟩ := hitem n hn
        exact ⟨r, fun _ => ⟨a, z, h⟩⟩
      · exact ⟨⟨⟨⟨[], [], 0, false⟩, 0, true, false⟩, ⟨[], [], false⟩, ⟨[], [], false⟩, ⟨[], [], false⟩⟩, fun h => absurd h hn⟩
    choose r hr' using this
    exact ⟨r, hr'⟩
  obtain ⟨r, hrr⟩ := hex
  obtain ⟨f, hff⟩ : ∃ f : Dim → Except Err DArray, f = fun n => (do applyAndDropDim copy func (← d.get n) dim) := ⟨_, rfl⟩
  have hfr : ∀ n ∈ names d, f n = Except.ok (r n) := fun n hn => by
    obtain ⟨a, z, h1, -, h2, -⟩ := hrr n hn
    rw [hff]; dsimp only; rw [h1]; exact h2
  obtain ⟨d', h1, h2, -⟩ := loop_ok (eq := eq) hr hd.names f (S := S) (u := .ok (independent dim (seen d)))
    (fun n hn r' hr' => by
      obtain ⟨a, z, -, -, -, g4, g5, g6⟩ := hrr n hn
      rw [hfr n hn] at hr'
      cases hr'
      exact ⟨g4.ok, by rw [g4.data]; exact g6, by rw [g4.coords, g5]⟩) r hfr
  refine ⟨orEmpty d', ?_, r, h2, fun n hn => ?_, fun k => ?_⟩
  · unfold applyToItems
    have hform : (d.items.map fun p => (p.1, do applyAndDropDim copy func (← d.get p.1) dim)) = (names d).map fun n => (n, f n) := by
      unfold names
      rw [List.map_map, hff]
      rfl
    rw [hform]
    show (fill eq eqn invalidDset ((names d).map fun n => (n, f n)) >>= _) = _
    rw [show fill eq eqn invalidDset ((names d).map fun n => (n, f n)) = .ok d' from h1]
    rfl
  · obtain ⟨a, z, h1, h3, -, h4, -⟩ := hrr n hn
    exact ⟨a, z, h1, h3, h4⟩
  · obtain ⟨p, hp⟩ := List.exists_mem_of_ne_nil _ hne
    have hn : p.1 ∈ names d := List.mem_map.2 ⟨p, hp, rfl⟩
    obtain ⟨a, z, -, -, -, g4, g5, -⟩ := hrr _ hn
    rw [h2.coords _ hn k, g4.coords, g5, ← lookup_seen hd k]
    have hid : independent dim (seen d) = ((seen d).filter fun p => decide (dim ∉ labels p.2.dims)).map fun p => (p.1, id p.2) := by simp [independent]
    rw [hid, lookup_map_filter (seen_nodup hd)]
    cases lookupEntry (seen d) k with
    | none => rfl
    | some e =>
      by_cases h : dim ∉ labels e.dims <;> simp [Option.filter, h]

/-- Without items, all coords are lost, also those that do not depend on the dim. -/
theorem C86_dataset_loses (eq eqn : Entry → Entry → Bool) (f : DArray → Except Err DArray) (d : Dset) (h : d.items = []) :
    applyToItems eq eqn f d = .ok ⟨⟨[], [], false⟩, [], false, true⟩ := by
  unfold applyToItems
  rw [h]
  rfl

/-! ### Examples and witnesses -/

private def ddCopy (e : Entry) : Entry := { e with obj := e.obj + 1000, view := { e.view with readonly := false } }
private theorem ddCopy_ok : IsCopy ddCopy := ⟨fun _ h => h, fun _ => rfl, fun _ => rfl⟩
/-- Removes a dim. -/
private def ddOp (e : Entry) (dim : Dim) (_ : List (Dim × Entry)) : Except Err Entry :=
  .ok ⟨View.fresh (e.dims.filter (·.1 ≠ dim)), 500, true, false⟩
private theorem ddOp_ok : Reduces ddOp := fun e dim _ hw _ =>
  ⟨_, rfl, fresh_WF ⟨hw.1.1.sublist (List.Sublist.map _ List.filter_sublist), fun p hp => hw.1.2 p (List.mem_filter.1 hp).1⟩, rfl⟩
private def ddSizes : Sizes := [(2, 3), (3, 2)]
private def ddData : Entry := ⟨⟨ddSizes, [2, 1], 0, false⟩, 1, true, false⟩
/-- Bin edges for dim 2, a coord for dim 3, a scalar and the edges of a single bin of dim 5, which is gone. -/
private def ddCoords : List (Dim × Entry) := [(2, dsVar 10 2 4), (3, dsVar 11 3 2), (8, ⟨⟨[], [], 0, false⟩, 12, true, false⟩), (5, dsVar 40 5 2)]
private def ddMasks : List (Dim × Entry) := [(9, dsVar 21 3 2), (10, dsVar 22 2 3)]
private def ddArr : DArray := ⟨ddData, ⟨ddSizes, ddCoords, false⟩, ⟨ddSizes, ddMasks, false⟩, ⟨ddSizes, [], false⟩⟩
private def ddDset : Dset := ⟨⟨ddSizes, ddCoords, false⟩, [(7, ⟨ddData, ⟨ddSizes, ddMasks, false⟩, ⟨ddSizes, [], false⟩⟩)], false, true⟩

private theorem ddWF : WF ddSizes := by simp [ddSizes, Sizes.WF, labels]
private theorem ddFits {d : Dim} {n : Int} (h : (d, n) = (2, 4) ∨ (d, n) = (5, 2) ∨ (d, n) = (3, 2) ∨ (d, n) = (2, 3)) : Fits ddSizes [(d, n)] := by
  refine ⟨d, ?_, ?_⟩
  · simp +contextual
  · rcases h with h | h | h | h <;> cases h <;> simp [ddSizes]
private theorem ddCoords_ok : (⟨ddSizes, ddCoords, false⟩ : SizedDict).Ok :=
  ⟨ddWF, by decide, fun p hp => by
    simp only [ddCoords, List.mem_cons, List.not_mem_nil, or_false] at hp
    rcases hp with rfl | rfl | rfl | rfl
    · exact ⟨dsVar_wf _ _ _ (by decide), rfl, ddFits (.inl rfl)⟩
    · exact ⟨dsVar_wf _ _ _ (by decide), rfl, ddFits (.inr (.inr (.inl rfl)))⟩
    · exact ⟨by simp [View.WF, Sizes.WF, labels], rfl, 0, by simp [Entry.dims], by simp [Entry.dims]⟩
    · exact ⟨dsVar_wf _ _ _ (by decide), rfl, ddFits (.inr (.inl rfl))⟩⟩
private theorem ddMasks_ok : (⟨ddSizes, ddMasks, false⟩ : SizedDict).Ok :=
  ⟨ddWF, by decide, fun p hp => by
    simp only [ddMasks, List.mem_cons, List.not_mem_nil, or_false] at hp
    rcases hp with rfl | rfl
    · exact ⟨dsVar_wf _ _ _ (by decide), rfl, ddFits (.inr (.inr (.inl rfl)))⟩
    · exact ⟨dsVar_wf _ _ _ (by decide), rfl, ddFits (.inr (.inr (.inr rfl)))⟩⟩
private theorem ddArr_ok : ddArr.Ok :=
  ⟨by simp [ddArr, ddData, ddSizes, View.WF, Sizes.WF, labels], ⟨ddCoords_ok, .rfl'⟩, ⟨ddMasks_ok, .rfl'⟩, ⟨⟨ddWF, by decide, fun p hp => nomatch hp⟩, .rfl'⟩⟩
private theorem ddDset_ok : ddDset.Ok :=
  ⟨ddCoords_ok, by decide, fun p hp => by rw [List.mem_singleton.1 hp]; exact ⟨ddArr_ok.data, .rfl', ddArr_ok.masks, ddArr_ok.attrs⟩, by decide, by decide⟩

/-- The reduction along dim 2 drops its edges and the mask that depends on it, and copies the other mask. -/
example : (reduce ddCopy ddOp ddArr 2).map (fun r => (r.data.dims, r.coords.items.map Prod.fst, r.masks.items.map fun p => (p.1, p.2.obj))) =
    .ok ([(3, 2)], [3, 8, 5], [(9, 1021)]) := by decide
private theorem ddRed_wf : WF (ddArr.data.dims.filter (·.1 ≠ 2)) := by
  rw [show ddArr.data.dims.filter (·.1 ≠ 2) = [(3, 2)] from by decide]
  simp [Sizes.WF, labels]
private def ddRed : DArray := ((reduce ddCopy ddOp ddArr 2).toOption).getD ddArr
example := C86_kept ddCopy ddCopy_ok (fun a dim => ddOp a.data dim []) ddArr ddArr_ok 2 _ rfl (fresh_WF ddRed_wf) ddRed (by decide)
example := C86_succeeds_iff ddCopy ddCopy_ok (fun a dim => ddOp a.data dim []) ddArr ddArr_ok 2 _ rfl (fresh_WF ddRed_wf)
example := C86_succeeds ddCopy ddCopy_ok (fun a dim => ddOp a.data dim []) ddArr ddArr_ok 2 _ rfl (fresh_WF ddRed_wf)
  (fun p hp => by show p ∈ List.filter _ _ ↔ _; rw [List.mem_filter]; simp [hp])
/-- The scalar coord and the edges of the selected bin stay. -/
example : (reduceAll id (reduce ddCopy ddOp) ddArr).map (fun r => (r.data.dims, r.coords.items.map Prod.fst, r.masks.items)) = .ok ([], [8, 5], []) := by decide
example := C86_all_dims ddCopy ddCopy_ok id ddOp ddOp_ok ddArr ddArr_ok (by decide)

private def ddNew : Entry := dsVar 60 2 6
private def ddRebin (_ : Entry) (_ : Dim) (_ _ : Entry) (_ : List (Dim × Entry)) : Except Err Entry := .ok ⟨View.fresh [(2, 5), (3, 2)], 500, true, false⟩
example := C86_rebin ddCopy ddCopy_ok ddRebin ddArr ddArr_ok 2 (dsVar 10 2 4) ddNew 5 rfl _ rfl (fresh_WF (by simp [Sizes.WF, labels]))
  (fun p hp => by
    show p ∈ [((2 : Dim), (5 : Int)), (3, 2)] ↔ p ∈ ddSizes
    simp only [ddSizes, List.mem_cons, List.not_mem_nil, or_false]
    exact ⟨fun h => .inr (h.resolve_left fun e => hp (by rw [e])), fun h => .inr (h.resolve_left fun e => hp (by rw [e]))⟩)
  (by show _ ∈ [((2 : Dim), (5 : Int)), (3, 2)]; simp) ⟨dsVar_wf _ _ _ (by decide), rfl, by decide, by decide⟩
example : (rebinArray ddCopy ddRebin ddArr 2 ddNew).map (fun r => r.coords.items.map fun p => (p.1, p.2.obj)) = .ok [(3, 11), (8, 12), (5, 40), (2, 60)] := by decide

/-- Events along dim 3, for which there is a coord for dim 4. -/
private def ddHistArr : DArray := ⟨ddData, ⟨ddSizes, (4, dsVar 70 3 2) :: ddCoords, false⟩, ⟨ddSizes, ddMasks, false⟩, ⟨ddSizes, [], false⟩⟩
private theorem ddHistArr_ok : ddHistArr.Ok :=
  ⟨ddArr_ok.data, ⟨⟨ddWF, by decide, fun p hp => by
    rcases List.mem_cons.1 hp with rfl | hp
    · exact ⟨dsVar_wf _ _ _ (by decide), rfl, ddFits (.inr (.inr (.inl rfl)))⟩
    · exact ddCoords_ok.2.2 p hp⟩, .rfl'⟩, ddArr_ok.masks, ddArr_ok.attrs⟩
private def ddHist (_ : DArray) (_ : Dim) (_ : Entry) : Except Err Entry := .ok ⟨View.fresh [(2, 3), (4, 7)], 500, true, false⟩
example := C86_histogram_partial ddCopy ddCopy_ok ddHist ddHistArr ddHistArr_ok (dsVar 80 4 8) 4 3 7 (by decide) rfl
  (.inr ⟨rfl, dsVar 70 3 2, rfl, ⟨by decide, .inl rfl⟩, by intro n h; simp [dsVar, Entry.dims]⟩) _ rfl (fresh_WF (by simp [Sizes.WF, labels]))
  (fun p => by
    show p ∈ [((2 : Dim), (3 : Int)), (4, 7)] ↔ (p ∈ ddSizes ∧ p.1 ≠ 3) ∨ _
    obtain ⟨x, n⟩ := p
    simp only [ddSizes, List.mem_cons, List.not_mem_nil, or_false, Prod.mk.injEq]
    constructor
    · rintro (⟨rfl, rfl⟩ | h)
      · exact .inl ⟨.inl ⟨rfl, rfl⟩, by decide⟩
      · exact .inr h
    · rintro (⟨h | h, h'⟩ | h)
      · exact .inl h
      · exact absurd h.1 h'
      · exact .inr h)
  ⟨dsVar_wf _ _ _ (by decide), rfl, by decide, by decide⟩ (by decide)
example : (histogramArray ddCopy ddHist ddHistArr (dsVar 80 4 8)).map (fun r => r.coords.items.map fun p => (p.1, p.2.obj)) = .ok [(2, 10), (8, 12), (5, 40), (4, 80)] := by decide

example := C86_dataset_partial dsEq dsEq (fun x => by simp [dsEq]) ddCopy ddCopy_ok (fun a dim => ddOp a.data dim []) 2 ddDset ddDset_ok [(3, 2)]
  (fun p hp => by
    obtain ⟨x, n⟩ := p
    simp only [ddDset, ddSizes, List.mem_cons, List.not_mem_nil, or_false, Prod.mk.injEq]
    exact ⟨.inr, fun h => h.resolve_left fun e => hp e.1⟩)
  (fun n a h => by
    obtain ⟨z, h1, h2, h3⟩ := ddOp_ok a.data 2 [] (by
      by_cases hn : n ∈ names ddDset
      · obtain ⟨x, g1, g2, -⟩ := get_of_mem ddDset_ok hn
        rw [g1] at h; cases h; exact g2.data
      · have : n ≠ 7 := fun e => hn (by rw [e]; decide)
        simp [Dset.get, ddDset, lookupEntry, Ne.symm this] at h) (by
      by_cases hn : n ∈ names ddDset
      · obtain ⟨x, g1, -, -, g4⟩ := get_of_mem ddDset_ok hn
        rw [g1] at h; cases h; exact (g4.labels _).2 (by decide)
      · have : n ≠ 7 := fun e => hn (by rw [e]; decide)
        simp [Dset.get, ddDset, lookupEntry, Ne.symm this] at h)
    refine ⟨z, h1, h2, fun p => ?_⟩
    by_cases hn : n ∈ names ddDset
    · obtain ⟨x, g1, -, -, g4⟩ := get_of_mem ddDset_ok hn
      rw [g1] at h; cases h
      rw [h3, List.mem_filter, g4 p]
      obtain ⟨x, n⟩ := p
      simp only [ddDset, ddSizes, List.mem_cons, List.not_mem_nil, or_false, Prod.mk.injEq]
      constructor
      · rintro ⟨h | h, h'⟩
        · simp [h.1] at h'
        · exact h
      · intro h
        exact ⟨.inr h, by rw [h.1]; rfl⟩
    · have : n ≠ 7 := fun e => hn (by rw [e]; decide)
      simp [Dset.get, ddDset, lookupEntry, Ne.symm this] at h) (by decide)

/-- Edges left over from a dim that is gone do not depend on the dim of the events, but do not fit the new bins: a coord 6 with two edges of dim 5, and a histogram with three bins along dim 5. The events
are along dim 4, with their coordinates in the coord 5. -/
theorem C86_leftover_edges : ∃ a : DArray, a.Ok ∧ EventsAlong a 5 4 ∧ lookupEntry a.coords.items 6 = some (dsVar 12 5 2) ∧
    histogramArray id (fun _ _ _ => .ok (dsVar 500 5 3)) a (dsVar 13 5 4) = .error .dimension := by
  have hw : WF [((4 : Dim), (2 : Int))] := by simp [Sizes.WF, labels]
  refine ⟨⟨dsVar 10 4 2, ⟨[(4, 2)], [(5, dsVar 11 4 2), (6, dsVar 12 5 2)], false⟩, ⟨[(4, 2)], [], false⟩, ⟨[(4, 2)], [], false⟩⟩,
    ⟨dsVar_wf _ _ _ (by decide), ⟨⟨hw, by decide, fun p hp => ?_⟩, .rfl'⟩, ⟨⟨hw, by decide, fun p hp => nomatch hp⟩, .rfl'⟩, ⟨⟨hw, by decide, fun p hp => nomatch hp⟩, .rfl'⟩⟩,
    .inr ⟨rfl, dsVar 11 4 2, rfl, ⟨by decide, .inl rfl⟩, by intro n h; simp [dsVar, Entry.dims]⟩, rfl, by decide⟩
  simp only [List.mem_cons, List.not_mem_nil, or_false] at hp
  rcases hp with rfl | rfl
  · exact ⟨dsVar_wf _ _ _ (by decide), rfl, 4, by simp +contextual [dsVar, Entry.dims], by simp [dsVar, Entry.dims]⟩
  · exact ⟨dsVar_wf _ _ _ (by decide), rfl, 5, by simp +contextual [dsVar, Entry.dims], by simp [dsVar, Entry.dims, labels]⟩

/-- An attr with the name of the dim stays, next to the coord with the edges. The result then has no `meta`, though the input has. Binned data along dim 4, with an attr 5, and a histogram with two bins along
dim 5. -/
theorem C86_attr_conflict : ∃ a r : DArray, a.Ok ∧ a.data.binned = true ∧ (∃ m, a.meta = .ok m) ∧
    histogramArray id (fun _ _ _ => .ok ⟨View.fresh [(4, 2), (5, 2)], 500, true, false⟩) a (dsVar 13 5 3) = .ok r ∧ r.meta = .error .dataArray := by
  have hw : WF [((4 : Dim), (2 : Int))] := by simp [Sizes.WF, labels]
  refine ⟨⟨⟨(dsVar 10 4 2).view, 10, true, true⟩, ⟨[(4, 2)], [], false⟩, ⟨[(4, 2)], [], false⟩, ⟨[(4, 2)], [(5, dsVar 11 4 2)], false⟩⟩,
    ⟨⟨View.fresh [(4, 2), (5, 2)], 500, true, false⟩, ⟨[(4, 2), (5, 2)], [(5, dsVar 13 5 3)], false⟩, ⟨[(4, 2), (5, 2)], [], false⟩, ⟨[(4, 2), (5, 2)], [(5, dsVar 11 4 2)], false⟩⟩,
    ⟨dsVar_wf 10 4 true (by decide), ⟨⟨hw, by decide, fun p hp => nomatch hp⟩, .rfl'⟩, ⟨⟨hw, by decide, fun p hp => nomatch hp⟩, .rfl'⟩, ⟨⟨hw, by decide, fun p hp => ?_⟩, .rfl'⟩⟩, rfl,
    ⟨_, rfl⟩, by decide, by decide⟩
  rw [List.mem_singleton.1 hp]
  exact ⟨dsVar_wf _ _ _ (by decide), rfl, 4, by simp +contextual [dsVar, Entry.dims], by simp [dsVar, Entry.dims]⟩

end Scipp.Props
