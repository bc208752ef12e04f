import Verif.Lemmas.Binning3
import Mathlib.Data.List.Nodup
namespace Scipp.Binning
open SubbinSizes
variable {E : Type}

/-! ### All positions -/

theorem flattenSizes_ok (length : Nat) (s : SubbinSizes) (h0 : 0 ≤ s.offset) (h1 : s.stop ≤ length) :
    flattenSizes length s = .ok ((List.range length).map fun (p : Nat) => s.val p) := by
  obtain ⟨a, ha⟩ := Int.eq_ofNat_of_zero_le h0
  have hle : a + s.sizes.length ≤ length := by simp only [stop] at h1; omega
  simp only [flattenSizes]
  rw [if_neg (by simp only [stop] at h1; omega)]
  congr 1
  apply List.ext_getElem
  · simp only [List.length_append, List.length_replicate, List.length_map, List.length_range]; omega
  · intro p hp1 hp2
    simp only [List.length_map, List.length_range] at hp2
    simp only [List.getElem_map, List.getElem_range]
    simp only [val]
    by_cases h2 : p < a
    · rw [if_neg (by omega)]
      rw [List.getElem_append_left (by simp; omega), List.getElem_append_left (by simp; omega), List.getElem_replicate]
    · rw [if_pos (by omega)]
      by_cases h3 : p < a + s.sizes.length
      · rw [List.getElem_append_left (by simp; omega), List.getElem_append_right (by simp; omega)]
        rw [List.getD_eq_getElem?_getD, List.getElem?_eq_getElem (by omega)]
        simp only [List.length_replicate, Option.getD_some]
        congr 1
        omega
      · rw [List.getElem_append_right (by simp; omega), List.getElem_replicate, List.getD_eq_getElem?_getD,
          List.getElem?_eq_none (by omega)]
        rfl

theorem shiftWrites_ok (length : Nat) {n : Nat} : ∀ (spans : List (Rows (InputBin E) n))
    (rs : List (SubbinSizes × List (List (Int × E)))) (k : Int),
    List.Forall₂ (fun rows r => r.1.sum = (((List.range length).flatMap fun (p : Nat) => binContent rows p).length : Int) ∧
      r.2.flatten.Perm (numbered 0 ((List.range length).flatMap fun (p : Nat) => binContent rows p))) spans rs →
    (shiftWrites k rs).flatten.Perm (numbered k (binContents length spans).flatten) ∧
    (rs.map fun r => r.1.sum).sum = ((binContents length spans).flatten.length : Int)
  | [], _, k, h => by cases h; exact ⟨List.Perm.refl _, rfl⟩
  | s :: spans, _, k, h => by
    cases h with
    | cons h1 h2 =>
      rename_i r rs
      obtain ⟨ih1, ih2⟩ := shiftWrites_ok length spans rs (k + r.1.sum) h2
      have hc : (binContents length (s :: spans)).flatten =
          ((List.range length).flatMap fun (p : Nat) => binContent s p) ++ (binContents length spans).flatten := by
        simp only [binContents, List.flatMap_def, List.map_cons, List.flatten_cons, List.flatten_append]
      rw [hc]
      refine ⟨?_, ?_⟩
      · simp only [shiftWrites]
        rw [List.flatten_append, numbered_append, ← h1.1]
        refine List.Perm.append ?_ ih1
        have := h1.2.map fun pe => (k + pe.1, pe.2)
        rw [numbered_shift, add_zero] at this
        refine List.Perm.trans (List.Perm.of_eq ?_) this
        rw [List.map_flatten]
      · rw [List.map_cons, List.sum_cons, ih2, h1.1, List.length_append]
        push_cast; rfl

theorem singleStage_ok {n : Nat} (length : Nat) (spans : List (Rows (InputBin E) n))
    (hfit : ∀ s ∈ spans, ∀ b ∈ s.flat, b.Fits length) (hm : ∀ s ∈ spans, s.Mono InputBin.range) :
    ∃ m, singleStage length spans = .ok m ∧ m.sizes = (binContents length spans).map (fun c => (c.length : Int)) ∧
      m.total = ((binContents length spans).flatten.length : Int) ∧
      m.writes.flatten.Perm (numbered 0 (binContents length spans).flatten) := by
  obtain ⟨rs, h1, h2⟩ := mapM_forall₂ mapSpan (fun (rows : Rows (InputBin E) n) r => 0 ≤ r.1.offset ∧ r.1.stop ≤ (length : Int) ∧
      (∀ p, r.1.val p = ((binContent rows p).length : Int)) ∧
      r.1.sum = (((List.range length).flatMap fun (p : Nat) => binContent rows p).length : Int) ∧
      r.2.flatten.Perm (numbered 0 ((List.range length).flatMap fun (p : Nat) => binContent rows p))) spans (by
    intro s hs
    obtain ⟨sz, ws, e1, e2⟩ := mapSpan_ok length s (hfit s hs) (hm s hs)
    exact ⟨(sz, ws), e1, e2⟩)
  have hsz : rs.mapM (fun r => flattenSizes length r.1) = .ok (spans.map fun s => (List.range length).map fun (p : Nat) =>
      ((binContent s p).length : Int)) := by
    clear h1 hfit hm
    induction h2 with
    | nil => rfl
    | @cons s r spans rs hr _ ih =>
      have hv : (List.range length).map (fun (p : Nat) => r.1.val p) = (List.range length).map fun (p : Nat) =>
          ((binContent s p).length : Int) := List.map_congr_left (fun p _ => hr.2.2.1 p)
      simp only [List.mapM_cons, flattenSizes_ok length r.1 hr.1 hr.2.1, hv, ih, bind, Except.bind, pure, Except.pure, List.map_cons]
  obtain ⟨h3, h4⟩ := shiftWrites_ok length spans rs 0 (h2.imp (fun _ _ h => ⟨h.2.2.2.1, h.2.2.2.2⟩))
  refine ⟨⟨(spans.map fun s => (List.range length).map fun (p : Nat) => ((binContent s p).length : Int)).flatten,
    (rs.map fun r => r.1.sum).sum, shiftWrites 0 rs⟩, ?_, ?_, h4, h3⟩
  · simp only [singleStage, h1, hsz, bind, Except.bind, pure, Except.pure]
  · simp only [binContents, List.flatMap_def, List.map_flatten, List.map_map, Function.comp_def]

/-! ### The output buffer -/

theorem numbered_mem (l : List E) : ∀ (k p : Int) (e : E), (p, e) ∈ numbered k l ↔ ∃ n : Nat, p = k + n ∧ l[n]? = some e := by
  induction l with
  | nil => intro k p e; simp [numbered]
  | cons x l ih =>
    intro k p e
    simp only [numbered, List.mem_cons, Prod.mk.injEq, ih]
    constructor
    · rintro (⟨rfl, rfl⟩ | ⟨n, rfl, h⟩)
      · exact ⟨0, by simp, rfl⟩
      · exact ⟨n + 1, by push_cast; ring, h⟩
    · rintro ⟨n, rfl, h⟩
      cases n with
      | zero =>
        simp only [List.getElem?_cons_zero, Option.some.injEq] at h
        left; exact ⟨by simp, h.symm⟩
      | succ n =>
        right
        exact ⟨n, by push_cast; ring, h⟩

theorem numbered_nodup (l : List E) : ∀ k : Int, ((numbered k l).map (·.1)).Nodup ∧ ∀ p ∈ (numbered k l).map (·.1), k ≤ p := by
  induction l with
  | nil => intro k; simp [numbered]
  | cons x l ih =>
    intro k
    obtain ⟨h1, h2⟩ := ih (k + 1)
    simp only [numbered, List.map_cons, List.nodup_cons, List.mem_cons]
    refine ⟨⟨?_, h1⟩, ?_⟩
    · intro hc
      have := h2 _ hc
      omega
    · rintro p (rfl | hp)
      · exact le_refl _
      · have := h2 p hp
        omega

theorem fill_ok (ws : List (Int × E)) : ∀ out : List (Option E), (ws.map (·.1)).Nodup →
    (∀ w ∈ ws, 0 ≤ w.1 ∧ w.1 < out.length) →
    ∃ r, fill out ws = .ok r ∧ r.length = out.length ∧
      ∀ n : Nat, (∀ e, ((n : Int), e) ∈ ws → r[n]? = some (some e)) ∧ ((∀ e, ((n : Int), e) ∉ ws) → r[n]? = out[n]?) := by
  induction ws with
  | nil => intro out _ _; exact ⟨out, rfl, rfl, fun n => ⟨by simp, fun _ => rfl⟩⟩
  | cons w ws ih =>
    intro out hn hw
    obtain ⟨pos, e⟩ := w
    obtain ⟨h1, h2⟩ := hw (pos, e) (List.mem_cons_self ..)
    obtain ⟨a, ha⟩ := Int.eq_ofNat_of_zero_le h1
    have ha' : pos = (a : Int) := ha
    subst ha'
    have hal : a < out.length := by simp only at h2; omega
    rw [List.map_cons, List.nodup_cons] at hn
    obtain ⟨r, h3, h4, h5⟩ := ih (out.set a (some e)) hn.2 (fun x hx => by
      rw [List.length_set]; exact hw x (List.mem_cons_of_mem _ hx))
    rw [List.length_set] at h4
    refine ⟨r, ?_, h4, ?_⟩
    · simp only [fill, vecSet_nat hal, h3]
    · intro n
      obtain ⟨h6, h7⟩ := h5 n
      refine ⟨?_, ?_⟩
      · intro e' he'
        rcases List.mem_cons.mp he' with he' | he'
        · rw [Prod.mk.injEq] at he'
          have : n = a := by omega
          subst this
          rw [h7, List.getElem?_set_self hal, he'.2]
          intro e'' hc
          exact hn.1 (List.mem_map.mpr ⟨_, hc, rfl⟩)
        · exact h6 e' he'
      · intro hno
        have hna : n ≠ a := by
          intro hc
          subst hc
          exact hno e (List.mem_cons_self ..)
        rw [h7 (fun e' hc => hno e' (List.mem_cons_of_mem _ hc)), List.getElem?_set_ne (Ne.symm hna)]

theorem fill_numbered (content : List E) (ws : List (Int × E)) (h : ws.Perm (numbered 0 content)) :
    fill (List.replicate content.length none) ws = .ok (content.map some) := by
  obtain ⟨r, h1, h2, h3⟩ := fill_ok ws (List.replicate content.length none)
    ((h.map (·.1)).nodup_iff.mpr (numbered_nodup content 0).1) (by
      intro w hw
      rw [List.length_replicate]
      obtain ⟨p, e⟩ := w
      obtain ⟨n, hn1, hn2⟩ := (numbered_mem content 0 p e).mp (h.mem_iff.mp hw)
      have := (List.getElem?_eq_some_iff.mp hn2).1
      simp only; omega)
  rw [h1]
  congr 1
  rw [List.length_replicate] at h2
  apply List.ext_getElem?
  intro n
  by_cases hn : n < content.length
  · have := (h3 n).1 content[n] (h.mem_iff.mpr ((numbered_mem content 0 n _).mpr ⟨n, by omega, List.getElem?_eq_getElem hn⟩))
    rw [this]
    simp [hn]
  · rw [List.getElem?_eq_none (by omega), List.getElem?_eq_none (by simp; omega)]

/-! ### Reading bins -/

theorem mapM_some (l : List E) : (l.map some).mapM id = some l := by
  induction l with
  | nil => rfl
  | cons x l ih => simp [List.mapM_cons, ih]

theorem readBins_go (pre : List E) : ∀ (cs : List (List E)),
    readBins ((pre ++ cs.flatten).map some) (binsFromSizes pre.length (cs.map fun c => (c.length : Int))) = some cs := by
  intro cs
  induction cs generalizing pre with
  | nil => rfl
  | cons c cs ih =>
    have h := ih (pre ++ c)
    simp only [readBins] at h ⊢
    simp only [List.map_cons, binsFromSizes, List.mapM_cons]
    rw [if_neg (by simp only [List.length_map, List.length_append, List.flatten_cons]; push_cast; omega)]
    have e1 : ((pre.length : Int) + (c.length : Int) - (c.length : Int)).toNat = pre.length := by omega
    have e2 : ((pre.length : Int) + (c.length : Int) - ((pre.length : Int) + (c.length : Int) - (c.length : Int))).toNat = c.length := by
      omega
    rw [e1, e2, List.flatten_cons, ← List.map_drop, List.drop_left, ← List.map_take, List.take_left, mapM_some]
    rw [List.length_append] at h
    push_cast at h
    rw [List.append_assoc] at h
    simp only [h, bind, Option.bind, pure]

theorem readBins_ok (cs : List (List E)) :
    readBins (cs.flatten.map some) (binsFromSizes 0 (cs.map fun c => (c.length : Int))) = some cs := by
  have := readBins_go [] cs
  simpa using this

end Scipp.Binning
