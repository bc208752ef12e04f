import Verif.Lemmas.Masks
/-!
Lemmas about in-place union of masks and about reductions.
-/
namespace Scipp
open Scipp.Sizes Scipp.Props

theorem forM_ok {α : Type} (f : α → Except Err Unit) : ∀ (l : List α), l.forM f = .ok () ↔ ∀ x ∈ l, f x = .ok ()
  | [] => by simp [List.forM, pure, Except.pure]
  | x :: l => by
    have e : (x :: l).forM f = Except.bind (f x) (fun _ => l.forM f) := rfl
    rw [e]
    simp only [Except.bind, List.mem_cons, forall_eq_or_imp]
    cases h : f x with
    | error e => simp
    | ok u => simpa using forM_ok f l

theorem mem_iff_eq_of_sublist {a m : Dims} (hw : WF m) (hs : a.Sublist m) (h : ∀ p ∈ m, p ∈ a) : a = m := by
  refine hs.eq_of_length (Nat.le_antisymm hs.length_le ?_)
  exact (List.subperm_of_subset (List.Nodup.of_map _ hw.1) h).length_le

/-- `merge` with `b` leaves `a` unchanged exactly if `b` is included. -/
theorem merge_eq_left {a b m : Dims} (ha : WF a) (hb : WF b) (hai : Dim.invalid ∉ labels a) (hbi : Dim.invalid ∉ labels b)
    (h : Dims.merge a b = .ok m) : a = m ↔ ∀ p ∈ b, p ∈ a := by
  constructor
  · rintro rfl p hp
    exact (C02_merge_content a b a ha hb hai hbi h p.1 p.2).2 (.inr hp)
  · intro hs
    have := merge_of_includes ha hb hai hs
    rw [h] at this; injection this with this; exact this.symm

theorem changedBy_iff {m item : MaskVar} (hm : m.arr.Ok) (hi : item.arr.Ok) :
    m.changedBy item = .ok false ↔ m.Plain ∧ item.Plain ∧ (∀ p ∈ item.arr.dims, p ∈ m.arr.dims) ∧
      ∀ c, InDims m.arr.dims c → item.arr.val c = true → m.arr.val c = true := by
  unfold MaskVar.changedBy
  cases hr : m.or item with
  | error e =>
    simp only [reduceCtorEq, false_iff]
    rintro ⟨pm, pi, hs, _⟩
    obtain ⟨r, h⟩ := (or_exists hm hi).2 ⟨pm, pi, compatible_of_subset hm.wf hs⟩
    rw [hr] at h; cases h
  | ok r =>
    obtain ⟨h1, _, h3, h4, pm, pi⟩ := or_ok hm hi hr
    simp only [Except.ok.injEq, Bool.not_eq_false', Bool.and_eq_true, decide_eq_true_eq, List.all_eq_true, beq_iff_eq, h4]
    have hmerge : Dims.merge m.arr.dims item.arr.dims = .ok r.arr.dims := by
      unfold MaskVar.or at hr
      rw [if_neg (by simp [pm.bool, pi.bool]), if_neg (by simp [pm.unit, pi.unit])] at hr
      unfold Arr.zip at hr
      cases hz : Dims.merge m.arr.dims item.arr.dims with
      | error e => rw [hz] at hr; simp at hr
      | ok d => rw [hz] at hr; simp at hr; rw [← hr]
    rw [merge_eq_left hm.wf hi.wf hm.valid hi.valid hmerge]
    constructor
    · rintro ⟨hs, h⟩
      refine ⟨pm, pi, hs, fun c hc hv => ?_⟩
      have hb := position_bounds hc
      have hk := h (position m.arr.dims c).toNat (List.mem_range.2 (by omega))
      rw [show (((position m.arr.dims c).toNat : Nat) : Int) = position m.arr.dims c by omega] at hk
      have hcc := coordsOf_position hm.wf.1 hc
      rw [hm.own _ c hcc, hi.own _ c (fun d hd => hcc d (labels_mono hs d hd)), hv] at hk
      simpa using hk
    · rintro ⟨_, _, hs, h⟩
      refine ⟨hs, fun k hk => ?_⟩
      have := List.mem_range.1 hk
      have hin := coordsOf_inDims hm.wf (k := (k : Int)) (by omega) (by omega)
      have := h _ hin
      revert this
      cases item.arr.val (coordsOf m.arr.dims k) <;> cases m.arr.val (coordsOf m.arr.dims k) <;> simp

/-- What the combination with a mask of the same name requires from an in-place operation: boolean masks without unit, no
new dims, and if the mask is read-only (that of a slice, or shared along the slice dim) it must not change. -/
def InPlaceCombines (m item : MaskVar) : Prop :=
  m.Plain ∧ item.Plain ∧ (∀ p ∈ item.arr.dims, p ∈ m.arr.dims) ∧
    (m.readonly = true → ∀ c, InDims m.arr.dims c → item.arr.val c = true → m.arr.val c = true)

/-- Requirements of an in-place operation on a mask of the other operand. -/
def InPlaceAccepts (sizes : Sizes) (readonly : Bool) (x : Option MaskVar) (item : MaskVar) : Prop :=
  match x with
  | none => readonly = false ∧ Fits sizes item.arr.dims
  | some m => InPlaceCombines m item

theorem check_iff {cur : MaskDict} {p : Dim × MaskVar} (hcur : ∀ k m, lookupEntry cur.items k = some m → m.arr.Ok)
    (hp : p.2.arr.Ok) :
    unionOrInPlaceCheck cur p = .ok () ↔
      match lookupEntry cur.items p.1 with
      | none => cur.readonly = false
      | some m => m.Plain ∧ p.2.Plain ∧ (m.readonly = true → InPlaceCombines m p.2) := by
  unfold unionOrInPlaceCheck
  cases hl : lookupEntry cur.items p.1 with
  | none => cases cur.readonly <;> simp
  | some m =>
    have hm := hcur _ _ hl
    simp only
    have hro : checkReadonly m p.2 = .ok () ↔ (m.readonly = true → InPlaceCombines m p.2) := by
      unfold checkReadonly
      by_cases hr : m.readonly = true
      · rw [if_pos hr]
        have := changedBy_iff hm hp
        unfold InPlaceCombines
        simp only [hr, true_implies]
        rw [← this]
        cases hc : m.changedBy p.2 with
        | error e => simp
        | ok b => cases b <;> simp
      · simp [hr]
    cases hc : checkReadonly m p.2 with
    | error e =>
      rw [hc] at hro
      simp only [reduceCtorEq, false_iff] at hro ⊢
      rintro ⟨_, _, h⟩; exact hro h
    | ok u =>
      rw [hc] at hro
      have hro := hro.1 rfl
      simp only
      by_cases h1 : p.2.isBool = true ∧ m.isBool = true
      swap
      · rw [if_pos (by simp; by_contra hc; push Not at hc; simp at hc; exact h1 hc)]
        simp only [reduceCtorEq, false_iff]
        rintro ⟨pm, pi, _⟩; exact h1 ⟨pi.bool, pm.bool⟩
      rw [if_neg (by simp [h1])]
      by_cases h2 : p.2.unitNone = true ∧ m.unitNone = true
      swap
      · rw [if_pos (by simp; by_contra hc; push Not at hc; simp at hc; exact h2 hc)]
        simp only [reduceCtorEq, false_iff]
        rintro ⟨pm, pi, _⟩; exact h2 ⟨pi.unit, pm.unit⟩
      rw [if_neg (by simp [h2])]
      simp only [true_iff]
      exact ⟨⟨h1.2, h2.2⟩, ⟨h1.1, h2.1⟩, hro⟩

theorem setMask_iff {d : MaskDict} {k : Dim} {m : MaskVar} (hs : WF d.sizes) (hm : WF m.arr.dims) {r : MaskDict} :
    d.set k m = .ok r ↔ d.readonly = false ∧ Fits d.sizes m.arr.dims ∧ r = { d with items := insertEntry d.items k m } := by
  unfold MaskDict.set
  rw [← reduce_iff_fits hs hm]
  by_cases hr : d.readonly = true
  · simp [hr]
  · rw [if_neg hr]
    cases he : reduceEdges d.sizes (labels m.arr.dims) m.arr.dims with
    | error e => simp
    | ok dims =>
      simp only
      by_cases hi : Sizes.includes d.sizes dims = true
      · rw [if_pos hi]
        constructor
        · intro h; injection h with h
          exact ⟨by simpa using hr, ⟨dims, rfl, hi⟩, h.symm⟩
        · rintro ⟨_, _, rfl⟩; rfl
      · rw [if_neg hi]
        simp [hi]

/-- The second loop of `union_or_in_place`. `cur` is the state before the operation. -/
theorem inPlace_loop {cur : MaskDict} (hs : WF cur.sizes) (hcur : ∀ k m, lookupEntry cur.items k = some m → m.arr.Ok) :
    ∀ (l : List (Dim × MaskVar)) (st : MaskDict), (l.map Prod.fst).Nodup → (∀ p ∈ l, p.2.arr.Ok) →
      st.sizes = cur.sizes → st.readonly = cur.readonly →
      (∀ p ∈ l, lookupEntry st.items p.1 = lookupEntry cur.items p.1) →
      (∀ p ∈ l, ∀ m, lookupEntry cur.items p.1 = some m → m.Plain ∧ p.2.Plain ∧ (m.readonly = true → InPlaceCombines m p.2)) →
      ((∃ r, l.foldlM unionOrInPlaceStep st = .ok r) ↔
        ∀ p ∈ l, InPlaceAccepts cur.sizes cur.readonly (lookupEntry cur.items p.1) p.2) ∧
      ∀ r, l.foldlM unionOrInPlaceStep st = .ok r →
        r.sizes = cur.sizes ∧ r.readonly = cur.readonly ∧
        (∀ k, k ∉ l.map Prod.fst → lookupEntry r.items k = lookupEntry st.items k) ∧
        (∀ p ∈ l, IsMaskUnion (lookupEntry cur.items p.1) (some p.2) (lookupEntry r.items p.1) ∧
          ∀ m r', lookupEntry cur.items p.1 = some m → lookupEntry r.items p.1 = some r' → r'.arr.dims = m.arr.dims) ∧
        ((st.items.map Prod.fst).Nodup → (r.items.map Prod.fst).Nodup)
  | [], st, _, _, h1, h2, _, _ => by
    simp only [List.foldlM_nil, pure, Except.pure]
    exact ⟨by simp, fun r h => by injection h with h; subst h; simp [h1, h2]⟩
  | q :: l, st, hn, hok, hsz, hro, hst, hpl => by
    simp only [List.map_cons, List.nodup_cons] at hn
    simp only [List.foldlM_cons, bind, Except.bind]
    have hq := hok q (by simp)
    have hq' := hst q (by simp)
    have ih := fun st' => inPlace_loop hs hcur l st' hn.2 (fun p hp => hok p (List.mem_cons_of_mem _ hp))
    have hpl' : ∀ p ∈ l, ∀ m, lookupEntry cur.items p.1 = some m →
        m.Plain ∧ p.2.Plain ∧ (m.readonly = true → InPlaceCombines m p.2) := fun p hp => hpl p (List.mem_cons_of_mem _ hp)
    -- continuing with a state `st'` which differs from `st` at most under the name of `q`
    have go : ∀ st' : MaskDict, st'.sizes = st.sizes → st'.readonly = st.readonly →
        (∀ k, k ≠ q.1 → lookupEntry st'.items k = lookupEntry st.items k) →
        ((st.items.map Prod.fst).Nodup → (st'.items.map Prod.fst).Nodup) →
        (IsMaskUnion (lookupEntry cur.items q.1) (some q.2) (lookupEntry st'.items q.1) ∧
          ∀ m r', lookupEntry cur.items q.1 = some m → lookupEntry st'.items q.1 = some r' → r'.arr.dims = m.arr.dims) →
        InPlaceAccepts cur.sizes cur.readonly (lookupEntry cur.items q.1) q.2 →
        ((∃ r, l.foldlM unionOrInPlaceStep st' = .ok r) ↔
          ∀ p ∈ q :: l, InPlaceAccepts cur.sizes cur.readonly (lookupEntry cur.items p.1) p.2) ∧
        ∀ r, l.foldlM unionOrInPlaceStep st' = .ok r →
          r.sizes = cur.sizes ∧ r.readonly = cur.readonly ∧
          (∀ k, k ∉ (q :: l).map Prod.fst → lookupEntry r.items k = lookupEntry st.items k) ∧
          (∀ p ∈ q :: l, IsMaskUnion (lookupEntry cur.items p.1) (some p.2) (lookupEntry r.items p.1) ∧
            ∀ m r', lookupEntry cur.items p.1 = some m → lookupEntry r.items p.1 = some r' → r'.arr.dims = m.arr.dims) ∧
          ((st.items.map Prod.fst).Nodup → (r.items.map Prod.fst).Nodup) := by
      intro st' e1 e2 e3 e4 e5 e6
      obtain ⟨i1, i2⟩ := ih st' (e1.trans hsz) (e2.trans hro) (fun p hp => by
        rw [e3 p.1 (fun he => hn.1 (he ▸ List.mem_map.2 ⟨p, hp, rfl⟩))]
        exact hst p (List.mem_cons_of_mem _ hp)) hpl'
      refine ⟨?_, fun r hr => ?_⟩
      · rw [i1]
        constructor
        · intro h p hp
          rcases List.mem_cons.1 hp with rfl | hp
          · exact e6
          · exact h p hp
        · intro h p hp; exact h p (List.mem_cons_of_mem _ hp)
      · obtain ⟨j1, j2, j3, j4, j5⟩ := i2 r hr
        refine ⟨j1, j2, fun k hk => ?_, fun p hp => ?_, fun h => j5 (e4 h)⟩
        · simp only [List.map_cons, List.mem_cons, not_or] at hk
          rw [j3 k hk.2, e3 k hk.1]
        · rcases List.mem_cons.1 hp with rfl | hp
          · rw [j3 p.1 hn.1]; exact e5
          · exact j4 p hp
    unfold unionOrInPlaceStep
    rw [hq']
    cases hc : lookupEntry cur.items q.1 with
    | none =>
      simp only
      cases hset : st.set q.1 q.2.copy with
      | error e =>
        simp only
        refine ⟨⟨fun ⟨r, h⟩ => (by cases h), fun h => ?_⟩, fun r h => by cases h⟩
        have := h q (by simp)
        rw [hc] at this
        have h' := (setMask_iff (d := st) (k := q.1) (m := q.2.copy) (by rw [hsz]; exact hs) hq.wf
          (r := { st with items := insertEntry st.items q.1 q.2.copy })).2
            ⟨by rw [hro]; exact this.1, by rw [hsz]; exact this.2, rfl⟩
        rw [hset] at h'; cases h'
      | ok st' =>
        obtain ⟨s1, s2, rfl⟩ := (setMask_iff (m := q.2.copy) (by rw [hsz]; exact hs) hq.wf).1 hset
        simp only
        refine go _ rfl rfl (fun k hk => ?_) (fun h => insert_nodup h _ _) ?_ ?_
        · simp only [lookup_insert]; rw [if_neg hk]
        · rw [hc]
          simp only [lookup_insert, if_true]
          refine ⟨⟨by simp, fun p => ?_, fun c _ => ?_⟩, by simp⟩
          · simp [maskDims, MaskVar.copy]
          · simp [maskedBy, MaskVar.copy]
        · rw [hc]; exact ⟨by rw [← hro]; exact s1, by rw [← hsz]; exact s2⟩
    | some m =>
      have hm := hcur _ _ hc
      obtain ⟨pm, pi, hcomb⟩ := hpl q (by simp) m hc
      simp only
      by_cases hr : m.readonly = true
      · rw [if_pos hr]
        simp only
        obtain ⟨_, _, hsub, hval⟩ := hcomb hr
        refine go st rfl rfl (fun _ _ => rfl) id ?_ ?_
        · rw [hq', hc]
          refine ⟨⟨by simp, fun p => ?_, fun c hcin => ?_⟩, fun m' r' h1 h2 => by cases h1; cases h2; rfl⟩
          · simp only [maskDims]
            exact ⟨fun h => .inl h, fun h => h.elim id (hsub p)⟩
          · simp only [maskedBy]
            have := hval hr c hcin
            revert this
            cases q.2.arr.val c <;> cases m.arr.val c <;> simp
        · rw [hc]; exact hcomb hr
      · rw [if_neg hr]
        cases ho : m.orInPlace q.2 with
        | error e =>
          simp only
          refine ⟨⟨fun ⟨r, h⟩ => (by cases h), fun h => ?_⟩, fun r h => by cases h⟩
          have := h q (by simp)
          rw [hc] at this
          have h' := (orInPlace_iff hm hq).2 ⟨by simpa using hr, pm, pi, this.2.2.1, rfl⟩
          rw [ho] at h'; cases h'
        | ok x =>
          obtain ⟨_, _, _, hsub, rfl⟩ := (orInPlace_iff hm hq).1 ho
          simp only
          refine go _ rfl rfl (fun k hk => ?_) (fun h => insert_nodup h _ _) ?_ ?_
          · simp only [lookup_insert]; rw [if_neg hk]
          · rw [hc]
            simp only [lookup_insert, if_true]
            refine ⟨⟨by simp, fun p => ?_, fun c _ => ?_⟩, fun m' r' h1 h2 => by cases h1; cases h2; rfl⟩
            · simp only [maskDims]
              exact ⟨fun h => .inl h, fun h => h.elim id (hsub p)⟩
            · simp [maskedBy]
          · rw [hc]; exact ⟨pm, pi, hsub, fun h => absurd h hr⟩

end Scipp
