import Verif.Spec.Binning
import Verif.Lemmas.SubbinSizes
import Mathlib.Data.List.Perm.Basic
import Mathlib.Data.List.Flatten
import Mathlib.Algebra.BigOperators.Group.List.Basic
import Mathlib.Tactic.Ring
namespace Scipp.Binning
open SubbinSizes
variable {E : Type}

/-- A list with consecutive numbers. -/
def numbered : Int → List E → List (Int × E)
  | _, [] => []
  | k, e :: l => (k, e) :: numbered (k + 1) l

theorem numbered_append (k : Int) (a b : List E) : numbered k (a ++ b) = numbered k a ++ numbered (k + a.length) b := by
  induction a generalizing k with
  | nil => simp [numbered]
  | cons x a ih =>
    simp only [List.cons_append, numbered, ih, List.length_cons]
    have : k + 1 + (a.length : Int) = k + ((a.length + 1 : Nat) : Int) := by push_cast; ring
    rw [this]

theorem numbered_length (k : Int) (a : List E) : (numbered k a).length = a.length := by
  induction a generalizing k with
  | nil => rfl
  | cons x a ih => simp [numbered, ih]

theorem numbered_shift (k d : Int) (a : List E) : (numbered k a).map (fun pe => (d + pe.1, pe.2)) = numbered (d + k) a := by
  induction a generalizing k with
  | nil => rfl
  | cons x a ih => simp [numbered, ih, add_assoc]

theorem flatMap_update {β γ : Type} [DecidableEq β] (l : List β) (f g : β → List γ) (b : β) (x : γ) (hb : b ∈ l) (hn : l.Nodup)
    (hfb : f b = x :: g b) (hf : ∀ c ∈ l, c ≠ b → f c = g c) : (l.flatMap f).Perm (x :: l.flatMap g) := by
  induction l with
  | nil => cases hb
  | cons c l ih =>
    rw [List.nodup_cons] at hn
    rw [List.flatMap_cons, List.flatMap_cons]
    by_cases hc : c = b
    · subst hc
      have : l.flatMap f = l.flatMap g := by
        apply List.flatMap_congr
        intro d hd
        exact hf d (List.mem_cons_of_mem _ hd) (fun e => hn.1 (e ▸ hd))
      rw [this, hfb, List.cons_append]
    · have hb' : b ∈ l := by
        rcases List.mem_cons.mp hb with h | h
        · exact absurd h.symm hc
        · exact h
      rw [hf c (List.mem_cons_self ..) hc]
      refine ((ih hb' hn.2 (fun d hd hne => hf d (List.mem_cons_of_mem _ hd) hne)).append_left _).trans ?_
      exact List.perm_middle

/-- The writes of one input bin, sorted by output bin. -/
def canon (bins : List Int) (es : List (Int × E)) : List (Int × E) :=
  (List.range bins.length).flatMap fun b => numbered (bins.getD b 0) ((es.filter fun ie => ie.1 == (b : Int)).map (·.2))

/-- `map_to_bins_direct` also returning the bins. -/
def direct : List Int → List (Int × E) → Except Err (List (Int × E) × List Int)
  | bins, [] => .ok ([], bins)
  | bins, (i, e) :: es =>
    if i < 0 then direct bins es
    else match vecGet bins i with
      | none => .error .ub
      | some pos => match vecSet bins i (pos + 1) with
        | none => .error .ub
        | some bins' => (direct bins' es).map fun r => ((pos, e) :: r.1, r.2)

theorem mapDirect_eq (es : List (Int × E)) : ∀ bins, mapDirect bins es = (direct bins es).map (·.1) := by
  induction es with
  | nil => intro bins; rfl
  | cons ie es ih =>
    intro bins
    obtain ⟨i, e⟩ := ie
    simp only [mapDirect, direct]
    by_cases hi : i < 0
    · rw [if_pos hi, if_pos hi]; exact ih bins
    · rw [if_neg hi, if_neg hi]
      cases vecGet bins i with
      | none => rfl
      | some pos =>
        simp only
        cases vecSet bins i (pos + 1) with
        | none => rfl
        | some bins' =>
          simp only
          rw [ih]
          cases direct bins' es <;> rfl

theorem direct_step {bins : List Int} {i : Nat} (h : i < bins.length) :
    vecGet bins (i : Int) = some (bins.getD i 0) ∧
    vecSet bins (i : Int) (bins.getD i 0 + 1) = some (bins.set i (bins.getD i 0 + 1)) := by
  refine ⟨?_, vecSet_nat h _⟩
  rw [vecGet_nat, List.getElem?_eq_getElem h]
  simp [List.getD_eq_getElem?_getD, h]

theorem direct_ok (es : List (Int × E)) : ∀ bins : List Int, (∀ ie ∈ es, ie.1 < bins.length) →
    ∃ ws bins', direct bins es = .ok (ws, bins') ∧ bins'.length = bins.length ∧ ws.Perm (canon bins es) := by
  induction es with
  | nil =>
    intro bins _
    refine ⟨[], bins, rfl, rfl, ?_⟩
    have : canon bins ([] : List (Int × E)) = [] := by simp [canon, numbered]
    rw [this]
  | cons ie es ih =>
    intro bins hes
    obtain ⟨i, e⟩ := ie
    by_cases hi : i < 0
    · obtain ⟨ws, bins', h1, h2, h3⟩ := ih bins (fun x hx => hes x (List.mem_cons_of_mem _ hx))
      refine ⟨ws, bins', ?_, h2, ?_⟩
      · simp only [direct, if_pos hi, h1]
      · have : canon bins ((i, e) :: es) = canon bins es := by
          simp only [canon]
          apply List.flatMap_congr
          intro b _
          rw [List.filter_cons_of_neg]
          simp only [beq_iff_eq]; omega
        rw [this]; exact h3
    · obtain ⟨n, rfl⟩ := Int.eq_ofNat_of_zero_le (Int.not_lt.mp hi)
      have hn : n < bins.length := by
        have := hes ((n : Int), e) (List.mem_cons_self ..)
        simpa using this
      obtain ⟨hg, hs⟩ := direct_step hn
      obtain ⟨ws, bins', h1, h2, h3⟩ := ih (bins.set n (bins.getD n 0 + 1))
        (fun x hx => by rw [List.length_set]; exact hes x (List.mem_cons_of_mem _ hx))
      refine ⟨(bins.getD n 0, e) :: ws, bins', ?_, by rw [h2, List.length_set], ?_⟩
      · simp only [direct, if_neg hi, Int.ofNat_eq_natCast, hg, hs, h1]
        rfl
      · refine (List.Perm.cons _ h3).trans (List.Perm.symm ?_)
        simp only [canon, List.length_set]
        refine flatMap_update _ _ _ n _ (List.mem_range.mpr hn) List.nodup_range ?_ ?_
        · rw [List.filter_cons_of_pos (by simp)]
          simp only [List.map_cons, numbered]
          congr 2
          rw [getD_set _ _ _ _ hn, if_pos rfl]
        · intro c hc hne
          rw [List.filter_cons_of_neg (by simp only [Int.ofNat_eq_natCast, beq_iff_eq]; omega), getD_set _ _ _ _ hn, if_neg hne]

theorem direct_append (a b : List (Int × E)) : ∀ (bins : List Int) (wa : List (Int × E)) (bins' : List Int),
    direct bins a = .ok (wa, bins') → direct bins (a ++ b) = (direct bins' b).map fun r => (wa ++ r.1, r.2) := by
  induction a with
  | nil =>
    intro bins wa bins' h
    simp only [direct, Except.ok.injEq, Prod.mk.injEq] at h
    obtain ⟨rfl, rfl⟩ := h
    simp only [List.nil_append]
    cases direct bins b <;> rfl
  | cons ie a ih =>
    intro bins wa bins' h
    obtain ⟨i, e⟩ := ie
    simp only [List.cons_append, direct] at h ⊢
    by_cases hi : i < 0
    · rw [if_pos hi] at h ⊢
      exact ih _ _ _ h
    · rw [if_neg hi] at h ⊢
      cases hg : vecGet bins i with
      | none => rw [hg] at h; cases h
      | some pos =>
        rw [hg] at h
        simp only at h ⊢
        cases hs : vecSet bins i (pos + 1) with
        | none => rw [hs] at h; cases h
        | some bs =>
          rw [hs] at h
          simp only at h ⊢
          cases hd : direct bs a with
          | error x => rw [hd] at h; cases h
          | ok r =>
            rw [hd] at h
            simp only [Except.map, Except.ok.injEq, Prod.mk.injEq] at h
            obtain ⟨rfl, rfl⟩ := h
            rw [ih bs r.1 r.2 hd]
            cases direct r.2 b <;> rfl

theorem mapDirect_ok (bins : List Int) (es : List (Int × E)) (h : ∀ ie ∈ es, ie.1 < bins.length) :
    ∃ ws, mapDirect bins es = .ok ws ∧ ws.Perm (canon bins es) := by
  obtain ⟨ws, bins', h1, _, h3⟩ := direct_ok es bins h
  exact ⟨ws, by rw [mapDirect_eq, h1]; rfl, h3⟩

/-! ### The chunk-wise mapping -/

theorem mapChunk_eq (base : Int) (c : List (Int × E)) : ∀ bins : List Int, (∀ je ∈ c, 0 ≤ base + je.1) →
    mapChunk bins base c = direct bins (c.map fun je => (base + je.1, je.2)) := by
  induction c with
  | nil => intro bins _; rfl
  | cons je c ih =>
    intro bins h
    obtain ⟨j, e⟩ := je
    have h0 : ¬ base + j < 0 := by
      have := h (j, e) (List.mem_cons_self ..)
      simp only at this; omega
    simp only [mapChunk, List.map_cons, direct, if_neg h0]
    cases vecGet bins (base + j) with
    | none => rfl
    | some pos =>
      simp only
      cases vecSet bins (base + j) (pos + 1) with
      | none => rfl
      | some bins' =>
        simp only
        rw [ih bins' (fun x hx => h x (List.mem_cons_of_mem _ hx))]

/-- The events of chunks from number `k` on with the original indices. -/
def unchunk (chunksize : Int) : Int → List (List (Int × E)) → List (Int × E)
  | _, [] => []
  | k, c :: cs => c.map (fun je => (chunksize * k + je.1, je.2)) ++ unchunk chunksize (k + 1) cs

theorem mapChunks_eq (chunksize : Int) (hcs : 0 ≤ chunksize) (cs : List (List (Int × E))) : ∀ (bins : List Int) (k : Int), 0 ≤ k →
    (∀ c ∈ cs, ∀ je ∈ c, 0 ≤ je.1) → (∀ ie ∈ unchunk chunksize k cs, ie.1 < bins.length) →
    mapChunks chunksize bins k cs = direct bins (unchunk chunksize k cs) := by
  induction cs with
  | nil => intro bins k _ _ _; rfl
  | cons c cs ih =>
    intro bins k hk h0 hlt
    have hbase : 0 ≤ chunksize * k := Int.mul_nonneg hcs hk
    have hc : ∀ je ∈ c, 0 ≤ chunksize * k + je.1 := fun je hje =>
      Int.add_nonneg hbase (h0 c (List.mem_cons_self ..) je hje)
    simp only [unchunk] at hlt ⊢
    obtain ⟨ws, bins', h1, h2, _⟩ := direct_ok (c.map fun je => (chunksize * k + je.1, je.2)) bins
      (fun ie hie => hlt ie (List.mem_append_left _ hie))
    simp only [mapChunks]
    rw [mapChunk_eq _ _ _ hc, h1, direct_append _ _ _ _ _ h1]
    simp only [bind, Except.bind]
    rw [ih bins' (k + 1) (by omega) (fun d hd => h0 d (List.mem_cons_of_mem _ hd))
      (fun ie hie => by rw [h2]; exact hlt ie (List.mem_append_right _ hie))]
    cases direct bins' (unchunk chunksize (k + 1) cs) <;> rfl

/-- What `toChunks` appends to chunk `k`. -/
def chunkOf (chunksize : Int) (k : Nat) (es : List (Int × E)) : List (Int × E) :=
  (es.filter fun ie => decide (0 ≤ ie.1 ∧ ie.1.tdiv chunksize = (k : Int))).map fun ie => (ie.1.tmod chunksize, ie.2)

theorem toChunks_ok (chunksize : Int) (hcs : 0 < chunksize) (es : List (Int × E)) : ∀ chunks : List (List (Int × E)),
    (∀ ie ∈ es, ie.1.tdiv chunksize < chunks.length) →
    toChunks chunksize chunks es = .ok ((List.range chunks.length).map fun k => chunks.getD k [] ++ chunkOf chunksize k es) := by
  induction es with
  | nil =>
    intro chunks _
    simp only [toChunks, chunkOf, List.filter_nil, List.map_nil, List.append_nil]
    congr 1
    apply List.ext_getElem?
    intro k
    by_cases hk : k < chunks.length
    · simp [hk]
    · simp [Nat.not_lt.mp hk]
  | cons ie es ih =>
    intro chunks h
    obtain ⟨i, e⟩ := ie
    by_cases hi : i < 0
    · simp only [toChunks, if_pos hi]
      rw [ih chunks (fun x hx => h x (List.mem_cons_of_mem _ hx))]
      congr 1
      apply List.map_congr_left
      intro k _
      simp only [chunkOf]
      rw [List.filter_cons_of_neg (by simp only [decide_eq_true_eq]; omega)]
    · have hq : 0 ≤ i.tdiv chunksize := Int.tdiv_nonneg (by omega) (by omega)
      obtain ⟨q, hq⟩ := Int.eq_ofNat_of_zero_le hq
      have hql : q < chunks.length := by
        have := h (i, e) (List.mem_cons_self ..)
        simp only at this; omega
      have hget : vecGet chunks (i.tdiv chunksize) = some (chunks.getD q []) := by
        rw [hq, vecGet_nat, List.getElem?_eq_getElem hql]
        simp [List.getD_eq_getElem?_getD, hql]
      simp only [toChunks, if_neg hi, hget]
      rw [hq, vecSet_nat hql]
      simp only
      rw [ih _ (fun x hx => by rw [List.length_set]; exact h x (List.mem_cons_of_mem _ hx)), List.length_set]
      congr 1
      apply List.map_congr_left
      intro k hk
      by_cases hkq : k = q
      · subst hkq
        have : chunkOf chunksize k ((i, e) :: es) = (i.tmod chunksize, e) :: chunkOf chunksize k es := by
          simp only [chunkOf]
          rw [List.filter_cons_of_pos (by simp only [decide_eq_true_eq]; omega), List.map_cons]
        rw [this]
        simp [List.getD_eq_getElem?_getD, hql]
      · have : chunkOf chunksize k ((i, e) :: es) = chunkOf chunksize k es := by
          simp only [chunkOf]
          rw [List.filter_cons_of_neg (by simp only [decide_eq_true_eq]; omega)]
        rw [this]
        have : (chunks.set q (chunks.getD q [] ++ [(i.tmod chunksize, e)])).getD k [] = chunks.getD k [] := by
          simp [List.getD_eq_getElem?_getD, List.getElem?_set, Ne.symm hkq]
        rw [this]

theorem unchunk_range (chunksize : Int) (f : Nat → List (Int × E)) : ∀ (m k : Nat),
    unchunk chunksize (k : Int) ((List.range' k m).map f) =
      (List.range' k m).flatMap fun (q : Nat) => (f q).map fun je => (chunksize * (q : Int) + je.1, je.2)
  | 0, k => rfl
  | m + 1, k => by
    rw [List.range'_succ, List.map_cons, unchunk, List.flatMap_cons, ← unchunk_range chunksize f m (k + 1)]
    rfl

theorem chunkOf_restore (chunksize : Int) (k : Nat) (es : List (Int × E)) :
    (chunkOf chunksize k es).map (fun je => (chunksize * (k : Int) + je.1, je.2)) =
      es.filter fun ie => decide (0 ≤ ie.1 ∧ ie.1.tdiv chunksize = (k : Int)) := by
  simp only [chunkOf, List.map_map]
  conv_rhs => rw [← List.map_id (es.filter _)]
  apply List.map_congr_left
  intro ie hie
  simp only [List.mem_filter, decide_eq_true_eq] at hie
  obtain ⟨_, _, h⟩ := hie
  simp only [Function.comp_apply, id]
  rw [← h, Int.mul_tdiv_add_tmod]

/-- A block after sorting into `m` chunks. -/
def reorder (chunksize : Int) (m : Nat) (es : List (Int × E)) : List (Int × E) :=
  (List.range m).flatMap fun (k : Nat) => es.filter fun ie => decide (0 ≤ ie.1 ∧ ie.1.tdiv chunksize = (k : Int))

theorem reorder_mem (chunksize : Int) (m : Nat) (es : List (Int × E)) : ∀ ie ∈ reorder chunksize m es, ie ∈ es := by
  intro ie h
  simp only [reorder, List.mem_flatMap] at h
  obtain ⟨_, _, h⟩ := h
  exact List.mem_of_mem_filter h

theorem filter_flatMap_eq {β γ : Type} (p : γ → Bool) (l : List β) (f : β → List γ) :
    (l.flatMap f).filter p = l.flatMap fun b => (f b).filter p := by
  induction l with
  | nil => rfl
  | cons b l ih => simp [List.flatMap_cons, List.filter_append, ih]

theorem flatMap_single {β γ : Type} [DecidableEq β] (l : List β) (hn : l.Nodup) (b : β) (hb : b ∈ l) (f : β → List γ)
    (h : ∀ c ∈ l, c ≠ b → f c = []) : l.flatMap f = f b := by
  induction l with
  | nil => cases hb
  | cons c l ih =>
    rw [List.nodup_cons] at hn
    rw [List.flatMap_cons]
    by_cases hc : c = b
    · subst hc
      have : l.flatMap f = [] := by
        rw [List.flatMap_eq_nil_iff]
        intro d hd
        exact h d (List.mem_cons_of_mem _ hd) (fun e => hn.1 (e ▸ hd))
      rw [this, List.append_nil]
    · have hb' : b ∈ l := by
        rcases List.mem_cons.mp hb with h | h
        · exact absurd h.symm hc
        · exact h
      rw [h c (List.mem_cons_self ..) hc, List.nil_append]
      exact ih hn.2 hb' (fun d hd => h d (List.mem_cons_of_mem _ hd))

theorem filter_reorder (chunksize : Int) (m b : Nat) (es : List (Int × E)) (hb : (b : Int).tdiv chunksize < m)
    (hcs : 0 < chunksize) :
    (reorder chunksize m es).filter (fun ie => ie.1 == (b : Int)) = es.filter fun ie => ie.1 == (b : Int) := by
  have h0 : 0 ≤ (b : Int).tdiv chunksize := Int.tdiv_nonneg (by omega) (by omega)
  obtain ⟨q, hq⟩ := Int.eq_ofNat_of_zero_le h0
  rw [reorder, filter_flatMap_eq, flatMap_single _ List.nodup_range q (List.mem_range.mpr (by omega))]
  · rw [List.filter_filter]
    apply List.filter_congr
    intro ie _
    by_cases e : ie.1 = (b : Int)
    · simp [e, hq]
    · simp [e]
  · intro c _ hc
    rw [List.filter_filter, List.filter_eq_nil_iff]
    intro ie _
    simp only [Bool.and_eq_true, beq_iff_eq, decide_eq_true_eq, not_and]
    intro e h1 h2
    rw [e, hq] at h2
    simp only [Int.ofNat_eq_natCast, Int.natCast_inj] at h2
    exact hc h2.symm

theorem block_ok (chunksize : Int) (hcs : 0 < chunksize) (bins : List Int) (es : List (Int × E))
    (h : ∀ ie ∈ es, ie.1 < bins.length) (hb : bins ≠ []) :
    (do let chunks ← toChunks chunksize (List.replicate (((bins.length : Int) - 1).tdiv chunksize + 1).toNat []) es
        mapChunks chunksize bins 0 chunks) =
      direct bins (reorder chunksize (((bins.length : Int) - 1).tdiv chunksize + 1).toNat es) := by
  have hl : 0 < bins.length := List.length_pos_iff.mpr hb
  have h0 : 0 ≤ ((bins.length : Int) - 1).tdiv chunksize := Int.tdiv_nonneg (by omega) (by omega)
  have hmono : ∀ i : Int, i < bins.length → i.tdiv chunksize ≤ ((bins.length : Int) - 1).tdiv chunksize := by
    intro i hi
    by_cases hneg : 0 ≤ i
    · rw [Int.tdiv_eq_ediv_of_nonneg hneg, Int.tdiv_eq_ediv_of_nonneg (by omega)]
      exact Int.ediv_le_ediv hcs (by omega)
    · have h1 : 0 ≤ (-i).tdiv chunksize := Int.tdiv_nonneg (by omega) (by omega)
      rw [Int.neg_tdiv] at h1
      omega
  rw [toChunks_ok chunksize hcs es _ (by
    intro ie hie
    rw [List.length_replicate]
    have := hmono ie.1 (h ie hie)
    omega)]
  simp only [List.length_replicate, bind, Except.bind]
  have hlist : ((List.range (((bins.length : Int) - 1).tdiv chunksize + 1).toNat).map fun k =>
      (List.replicate (((bins.length : Int) - 1).tdiv chunksize + 1).toNat ([] : List (Int × E))).getD k [] ++ chunkOf chunksize k es) =
      (List.range (((bins.length : Int) - 1).tdiv chunksize + 1).toNat).map fun k => chunkOf chunksize k es := by
    apply List.map_congr_left
    intro k hk
    rw [List.mem_range] at hk
    simp [List.getD_eq_getElem?_getD, hk]
  rw [hlist]
  have hun : unchunk chunksize 0 ((List.range (((bins.length : Int) - 1).tdiv chunksize + 1).toNat).map fun k => chunkOf chunksize k es) =
      reorder chunksize (((bins.length : Int) - 1).tdiv chunksize + 1).toNat es := by
    have := unchunk_range chunksize (fun k => chunkOf chunksize k es) (((bins.length : Int) - 1).tdiv chunksize + 1).toNat 0
    rw [← List.range_eq_range'] at this
    rw [show ((0 : Nat) : Int) = 0 from rfl] at this
    rw [this, reorder]
    apply List.flatMap_congr
    intro k _
    exact chunkOf_restore chunksize k es
  rw [mapChunks_eq chunksize (by omega) _ _ 0 (le_refl _), hun]
  · intro c hc je hje
    rw [List.mem_map] at hc
    obtain ⟨k, _, rfl⟩ := hc
    simp only [chunkOf, List.mem_map, List.mem_filter, decide_eq_true_eq] at hje
    obtain ⟨ie, ⟨_, h1, _⟩, rfl⟩ := hje
    exact Int.tmod_nonneg _ h1
  · intro ie hie
    rw [hun] at hie
    exact h ie (reorder_mem _ _ _ ie hie)

/-- All blocks, each sorted into chunks. -/
def reorderBlocks (chunksize : Int) (m block : Nat) : Nat → List (Int × E) → List (Int × E)
  | 0, _ => []
  | fuel + 1, es => if es.isEmpty then [] else
    reorder chunksize m (es.take block) ++ reorderBlocks chunksize m block fuel (es.drop block)

theorem mapBlocks_eq (chunksize : Int) (hcs : 0 < chunksize) (block : Nat) : ∀ (fuel : Nat) (bins : List Int) (es : List (Int × E)),
    (∀ ie ∈ es, ie.1 < bins.length) → bins ≠ [] →
    mapBlocks chunksize block fuel bins es =
      (direct bins (reorderBlocks chunksize (((bins.length : Int) - 1).tdiv chunksize + 1).toNat block fuel es)).map (·.1) := by
  intro fuel
  induction fuel with
  | zero => intro bins es _ _; rfl
  | succ fuel ih =>
    intro bins es h hb
    simp only [mapBlocks, reorderBlocks]
    by_cases he : es.isEmpty
    · rw [if_pos he, if_pos he]; rfl
    · rw [if_neg he, if_neg he]
      have h1 : ∀ ie ∈ es.take block, ie.1 < bins.length := fun ie hie => h ie (List.mem_of_mem_take hie)
      have h2 : ∀ ie ∈ es.drop block, ie.1 < bins.length := fun ie hie => h ie (List.mem_of_mem_drop hie)
      have hbk := block_ok chunksize hcs bins (es.take block) h1 hb
      obtain ⟨ws, bins', hd, hl, _⟩ := direct_ok (reorder chunksize (((bins.length : Int) - 1).tdiv chunksize + 1).toNat (es.take block)) bins
        (fun ie hie => h1 ie (reorder_mem _ _ _ ie hie))
      rw [direct_append _ _ _ _ _ hd]
      rw [hd] at hbk
      cases ht : toChunks chunksize (List.replicate (((bins.length : Int) - 1).tdiv chunksize + 1).toNat []) (es.take block) with
      | error x => rw [ht] at hbk; cases hbk
      | ok chunks =>
        rw [ht] at hbk
        simp only [bind, Except.bind] at hbk ⊢
        rw [hbk]
        simp only
        rw [ih bins' (es.drop block) (by rw [hl]; exact h2) (by
          intro hc; rw [hc] at hl; exact hb (List.length_eq_zero_iff.mp hl.symm)), hl]
        cases direct bins' (reorderBlocks chunksize (((bins.length : Int) - 1).tdiv chunksize + 1).toNat block fuel (es.drop block)) <;> rfl

theorem filter_reorderBlocks (chunksize : Int) (m b block : Nat) (hb : (b : Int).tdiv chunksize < m) (hcs : 0 < chunksize)
    (hblock : 0 < block) : ∀ (fuel : Nat) (es : List (Int × E)), es.length ≤ fuel →
    (reorderBlocks chunksize m block fuel es).filter (fun ie => ie.1 == (b : Int)) = es.filter fun ie => ie.1 == (b : Int) := by
  intro fuel
  induction fuel with
  | zero =>
    intro es h
    have : es = [] := List.length_eq_zero_iff.mp (by omega)
    subst this; rfl
  | succ fuel ih =>
    intro es h
    simp only [reorderBlocks]
    by_cases he : es.isEmpty
    · rw [if_pos he]
      have : es = [] := by simpa using he
      subst this; rfl
    · rw [if_neg he, List.filter_append, filter_reorder _ _ _ _ hb hcs, ih]
      · rw [← List.filter_append, List.take_append_drop]
      · have : es ≠ [] := by simpa using he
        have := List.length_pos_iff.mpr this
        rw [List.length_drop]; omega

theorem reorderBlocks_mem (chunksize : Int) (m block : Nat) : ∀ (fuel : Nat) (es : List (Int × E)),
    ∀ ie ∈ reorderBlocks chunksize m block fuel es, ie ∈ es := by
  intro fuel
  induction fuel with
  | zero => intro es ie h; cases h
  | succ fuel ih =>
    intro es ie h
    simp only [reorderBlocks] at h
    split at h
    · cases h
    · rcases List.mem_append.mp h with h | h
      · exact List.mem_of_mem_take (reorder_mem _ _ _ _ h)
      · exact List.mem_of_mem_drop (ih _ _ h)

theorem mapChunkwise_ok (chunksize : Int) (hcs : 0 < chunksize) (bins : List Int) (es : List (Int × E))
    (h : ∀ ie ∈ es, ie.1 < bins.length) (hb : bins ≠ []) :
    ∃ ws, mapChunkwise chunksize bins es = .ok ws ∧ ws.Perm (canon bins es) := by
  have hl : 0 < bins.length := List.length_pos_iff.mpr hb
  rw [mapChunkwise, mapBlocks_eq chunksize hcs _ _ _ _ h hb]
  obtain ⟨ws, bins', h1, _, h3⟩ := direct_ok (reorderBlocks chunksize (((bins.length : Int) - 1).tdiv chunksize + 1).toNat
    (bins.length * 8) es.length es) bins (fun ie hie => h ie (reorderBlocks_mem _ _ _ _ _ ie hie))
  refine ⟨ws, by rw [h1]; rfl, h3.trans ?_⟩
  have : canon bins (reorderBlocks chunksize (((bins.length : Int) - 1).tdiv chunksize + 1).toNat
    (bins.length * 8) es.length es) = canon bins es := by
    simp only [canon]
    apply List.flatMap_congr
    intro b hbm
    rw [List.mem_range] at hbm
    rw [filter_reorderBlocks _ _ _ _ _ hcs (by omega) _ _ (le_refl _)]
    have h0 : 0 ≤ ((bins.length : Int) - 1).tdiv chunksize := Int.tdiv_nonneg (by omega) (by omega)
    have : (b : Int).tdiv chunksize ≤ ((bins.length : Int) - 1).tdiv chunksize := by
      rw [Int.tdiv_eq_ediv_of_nonneg (by omega), Int.tdiv_eq_ediv_of_nonneg (by omega)]
      exact Int.ediv_le_ediv hcs (by omega)
    omega
  rw [this]

theorem mapToBins_ok (bins : List Int) (es : List (Int × E)) (h : ∀ ie ∈ es, ie.1 < bins.length) :
    ∃ ws, mapToBins bins es = .ok ws ∧ ws.Perm (canon bins es) := by
  simp only [mapToBins]
  split
  · rename_i hc
    have hb : bins ≠ [] := by
      intro e; rw [e] at hc; simp at hc
    split
    · exact mapChunkwise_ok 128 (by decide) bins es h hb
    · split
      · exact mapChunkwise_ok 256 (by decide) bins es h hb
      · split
        · exact mapChunkwise_ok 512 (by decide) bins es h hb
        · exact mapChunkwise_ok 1024 (by decide) bins es h hb
  · exact mapDirect_ok bins es h

end Scipp.Binning
