import Verif.Spec.DropDim
import Verif.Lemmas.DatasetOps
/-! Lemmas about operations that drop a dim. -/
namespace Scipp.DropDim
open Sizes DatasetOps Props

theorem mem_independent {dim : Dim} {items : List (Dim × Entry)} {p : Dim × Entry} : p ∈ independent dim items ↔ p ∈ items ∧ dim ∉ labels p.2.dims := by
  unfold independent; rw [List.mem_filter, decide_eq_true_eq]

theorem independent_nodup {dim : Dim} {items : List (Dim × Entry)} (hn : (items.map Prod.fst).Nodup) : ((independent dim items).map Prod.fst).Nodup :=
  hn.sublist (List.Sublist.map _ List.filter_sublist)

theorem copyIndependent_eq {dim : Dim} {f : Entry → Entry} {items : List (Dim × Entry)} (hn : (items.map Prod.fst).Nodup) :
    copyIndependent dim f items = (independent dim items).map fun p => (p.1, f p.2) := by
  unfold copyIndependent
  suffices h : ∀ (l acc : List (Dim × Entry)), (∀ p ∈ l, p.1 ∉ acc.map Prod.fst) → (l.map Prod.fst).Nodup →
      l.foldl (fun out p => if Sizes.contains p.2.dims dim then out else insertEntry out p.1 (f p.2)) acc = acc ++ (independent dim l).map fun p => (p.1, f p.2) by
    rw [h items [] (by simp) hn]; rfl
  intro l
  induction l with
  | nil => intro acc _ _; simp [independent]
  | cons p l ih =>
    intro acc hd hn
    simp only [List.map_cons, List.nodup_cons] at hn
    rw [List.foldl_cons]
    by_cases hc : dim ∈ labels p.2.dims
    · rw [if_pos (contains_iff.2 hc), ih _ (fun q hq => hd q (by simp [hq])) hn.2]
      simp [independent, hc]
    · rw [if_neg (by rw [contains_iff]; exact hc), insert_append (hd p (by simp)), ih _ ?_ hn.2]
      · simp [independent, hc]
      · intro q hq
        rw [List.map_append, List.mem_append]
        rintro (h | h)
        · exact hd q (by simp [hq]) h
        · simp only [List.map_cons, List.map_nil, List.mem_singleton] at h
          exact hn.1 (h ▸ List.mem_map_of_mem hq)

/-- Making a dictionary from items succeeds exactly if they fit. -/
theorem ofItems_iff {sizes : Sizes} {ro : Bool} {items : List (Dim × Entry)} {d : SizedDict} (hs : WF sizes) (hn : (items.map Prod.fst).Nodup) (hw : ∀ p ∈ items, p.2.view.WF) :
    SizedDict.ofItems sizes items ro = .ok d ↔ (∀ p ∈ items, p.2.binned = false ∧ Fits sizes p.2.dims) ∧ d = ⟨sizes, items, ro⟩ := by
  constructor
  · intro h
    have hd : d = ⟨sizes, items, ro⟩ := by
      unfold SizedDict.ofItems at h
      suffices hf : ∀ (l acc : List (Dim × Entry)) (r : SizedDict), (∀ p ∈ l, p.1 ∉ acc.map Prod.fst) → (l.map Prod.fst).Nodup →
          l.foldlM SizedDict.setItem ⟨sizes, acc, false⟩ = .ok r → r = ⟨sizes, acc ++ l, false⟩ by
        split at h
        · cases h
        · rename_i r hr
          cases h
          rw [hf items [] r (by simp) hn hr]
          rfl
      intro l
      induction l with
      | nil => intro acc r _ _ h; cases h; simp
      | cons p l ih =>
        intro acc r hd hn h
        simp only [List.map_cons, List.nodup_cons] at hn
        rw [List.foldlM_cons] at h
        cases h1 : SizedDict.setItem ⟨sizes, acc, false⟩ p with
        | error e => rw [h1] at h; cases h
        | ok c =>
          rw [h1] at h
          have hc : c = ⟨sizes, acc ++ [p], false⟩ := by
            unfold SizedDict.setItem SizedDict.set at h1
            rw [lookup_none.2 (hd p (by simp))] at h1
            obtain ⟨-, rfl⟩ := insert_ok h1
            rw [insert_append (hd p (by simp))]
          subst hc
          have := ih (acc ++ [p]) r (fun q hq => by
            rw [List.map_append, List.mem_append]
            rintro (h | h)
            · exact hd q (by simp [hq]) h
            · simp only [List.map_cons, List.map_nil, List.mem_singleton] at h
              exact hn.1 (h ▸ List.mem_map_of_mem hq)) hn.2 h
          rw [this]
          simp
    refine ⟨fun p hp => ?_, hd⟩
    subst hd
    exact ((ofItems_Ok hs hw h).1.2.2 p hp).2
  · rintro ⟨h, rfl⟩
    exact ofItems_exists hs items hn fun p hp => ⟨hw p hp, h p hp⟩

theorem copied_nodup {f : Entry → Entry} {items : List (Dim × Entry)} (hn : (items.map Prod.fst).Nodup) : ((items.map fun p => (p.1, f p.2)).map Prod.fst).Nodup := by
  rw [List.map_map]; exact hn

/-- What an operation that drops a dim does. -/
theorem applyAndDropDim_iff {copy : Entry → Entry} (hc : IsCopy copy) {func : DArray → Dim → Except Err Entry} {a : DArray} (ha : a.Ok) {dim : Dim} {z : Entry} (hf : func a dim = .ok z)
    (hz : z.view.WF) (r : DArray) : applyAndDropDim copy func a dim = .ok r ↔
      ((∀ p ∈ independent dim a.coords.items, Fits z.dims p.2.dims) ∧ (∀ p ∈ independent dim a.masks.items, Fits z.dims p.2.dims) ∧
        ∀ p ∈ independent dim a.attrs.items, Fits z.dims p.2.dims) ∧
      r = ⟨z, ⟨z.dims, independent dim a.coords.items, false⟩, ⟨z.dims, (independent dim a.masks.items).map fun p => (p.1, copy p.2), false⟩,
        ⟨z.dims, independent dim a.attrs.items, false⟩⟩ := by
  have hid : ∀ l : List (Dim × Entry), (l.map fun p => (p.1, id p.2)) = l := fun l => by simp
  have key : ∀ {d : SizedDict} (f : Entry → Entry), IsCopy f → d.Ok → ∀ c,
      SizedDict.ofItems z.dims ((independent dim d.items).map fun p => (p.1, f p.2)) false = .ok c ↔
        (∀ p ∈ independent dim d.items, Fits z.dims p.2.dims) ∧ c = ⟨z.dims, (independent dim d.items).map fun p => (p.1, f p.2), false⟩ := fun {d} f hf hd c => by
    rw [ofItems_iff hz.1 (copied_nodup (independent_nodup hd.2.1)) (fun p hp => by
      obtain ⟨q, hq, rfl⟩ := List.mem_map.1 hp
      exact hf.wf _ (hd.2.2 q (mem_independent.1 hq).1).1)]
    refine and_congr_left fun _ => ⟨fun h p hp => ?_, fun h p hp => ?_⟩
    · have := (h _ (List.mem_map.2 ⟨p, hp, rfl⟩)).2
      rwa [hf.dims] at this
    · obtain ⟨q, hq, rfl⟩ := List.mem_map.1 hp
      refine ⟨?_, ?_⟩
      · show (f q.2).binned = false
        rw [hf.binned]; exact (hd.2.2 q (mem_independent.1 hq).1).2.1
      · show Fits z.dims (f q.2).dims
        rw [hf.dims]; exact h q hq
  have kc := key id ⟨fun _ h => h, fun _ => rfl, fun _ => rfl⟩ ha.coords.1
  have ka := key id ⟨fun _ h => h, fun _ => rfl, fun _ => rfl⟩ ha.attrs.1
  have km := key copy hc ha.masks.1
  rw [hid] at kc ka
  unfold applyAndDropDim
  rw [copyIndependent_eq ha.coords.1.2.1, copyIndependent_eq ha.masks.1.2.1, copyIndependent_eq ha.attrs.1.2.1, hf, hid, hid]
  show makeArray z _ _ _ = _ ↔ _
  unfold makeArray
  cases h1 : SizedDict.ofItems z.dims (independent dim a.coords.items) false with
  | error e =>
    constructor
    · intro h; cases h
    · rintro ⟨⟨h, -, -⟩, -⟩
      rw [(kc _).2 ⟨h, rfl⟩] at h1; cases h1
  | ok c =>
    obtain ⟨g1, rfl⟩ := (kc c).1 h1
    cases h2 : SizedDict.ofItems z.dims ((independent dim a.masks.items).map fun p => (p.1, copy p.2)) false with
    | error e =>
      constructor
      · intro h; cases h
      · rintro ⟨⟨-, h, -⟩, -⟩
        rw [(km _).2 ⟨h, rfl⟩] at h2; cases h2
    | ok m =>
      obtain ⟨g2, rfl⟩ := (km m).1 h2
      cases h3 : SizedDict.ofItems z.dims (independent dim a.attrs.items) false with
      | error e =>
        constructor
        · intro h; cases h
        · rintro ⟨⟨-, -, h⟩, -⟩
          rw [(ka _).2 ⟨h, rfl⟩] at h3; cases h3
      | ok t =>
        obtain ⟨g3, rfl⟩ := (ka t).1 h3
        constructor
        · intro h; cases h; exact ⟨⟨g1, g2, g3⟩, rfl⟩
        · rintro ⟨-, rfl⟩; rfl

/-- Entries that do not depend on `dim` fit data that differs only in `dim`. -/
theorem fits_other {s t : Sizes} {dims : Dims} {dim : Dim} (h : ∀ p : Dim × Int, p.1 ≠ dim → (p ∈ t ↔ p ∈ s)) (hd : dim ∉ labels dims) (hf : Fits s dims) : Fits t dims := by
  obtain ⟨e, h1, h2⟩ := hf
  have hl : ∀ x, x ≠ dim → (x ∈ labels t ↔ x ∈ labels s) := fun x hx =>
    ⟨fun hm => by obtain ⟨n, hn⟩ := mem_of_labels hm; exact mem_labels ((h (x, n) hx).1 hn), fun hm => by obtain ⟨n, hn⟩ := mem_of_labels hm; exact mem_labels ((h (x, n) hx).2 hn)⟩
  refine ⟨e, fun d n hm hde => (h (d, n) (fun hh => hd ((show d = dim from hh) ▸ mem_labels hm))).2 (h1 d n hm hde), fun n hm => ?_⟩
  have hne : e ≠ dim := fun hh => hd (hh ▸ mem_labels hm)
  rcases h2 n hm with g | ⟨m, g1, g2⟩ | ⟨g1, g2⟩
  · exact .inl ((h (e, n) hne).2 g)
  · exact .inr (.inl ⟨m, (h (e, m) hne).2 g1, g2⟩)
  · exact .inr (.inr ⟨fun hh => g1 ((hl e hne).1 hh), g2⟩)

end Scipp.DropDim
