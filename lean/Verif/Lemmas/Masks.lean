import Verif.Spec.Masks
import Verif.Lemmas.SizedDict
import Verif.Lemmas.Transform
import Verif.Lemmas.View2
import Verif.Props.Sizes
/-!
Lemmas about masks and arrays by content.
-/
namespace Scipp
open Scipp.Sizes Scipp.Props

theorem merge_valid {a b m : Dims} (ha : WF a) (hb : WF b) (hai : Dim.invalid ∉ labels a) (hbi : Dim.invalid ∉ labels b)
    (h : Dims.merge a b = .ok m) : WF m ∧ Dim.invalid ∉ labels m := by
  refine ⟨Dims.merge_WF h, fun hc => ?_⟩
  obtain ⟨n, hn⟩ := at?_ok_of_mem_labels hc
  rcases (C02_merge_content a b m ha hb hai hbi h _ _).1 (at?_ok_mem hn) with h' | h'
  · exact hai (mem_labels h')
  · exact hbi (mem_labels h')

theorem labels_mono {s t : Dims} (h : ∀ p ∈ s, p ∈ t) : ∀ d ∈ labels s, d ∈ labels t := by
  intro d hd
  obtain ⟨n, hn⟩ := at?_ok_of_mem_labels hd
  exact mem_labels (h _ (at?_ok_mem hn))

theorem zip_ok {U V W : Type} {f : U → V → W} {a : Arr U} {b : Arr V} (ha : a.Ok) (hb : b.Ok) {r : Arr W}
    (h : Arr.zip f a b = .ok r) : r.Ok ∧ (∀ p, p ∈ r.dims ↔ p ∈ a.dims ∨ p ∈ b.dims) ∧
      r.val = (fun c => f (a.val c) (b.val c)) := by
  unfold Arr.zip at h
  cases hm : Dims.merge a.dims b.dims with
  | error e => rw [hm] at h; simp at h
  | ok m =>
    rw [hm] at h
    injection h with h
    subst h
    have hc := C02_merge_content a.dims b.dims m ha.wf hb.wf ha.valid hb.valid hm
    have hv := merge_valid ha.wf hb.wf ha.valid hb.valid hm
    refine ⟨⟨hv.1, hv.2, ?_⟩, fun p => hc p.1 p.2, rfl⟩
    intro c c' hcc
    have e1 := ha.own c c' (fun d hd => hcc d (labels_mono (fun p hp => (hc p.1 p.2).2 (.inl hp)) d hd))
    have e2 := hb.own c c' (fun d hd => hcc d (labels_mono (fun p hp => (hc p.1 p.2).2 (.inr hp)) d hd))
    simp only [e1, e2]

theorem zip_exists {U V W : Type} {f : U → V → W} {a : Arr U} {b : Arr V} (ha : a.Ok) (hb : b.Ok) :
    (∃ r, Arr.zip f a b = .ok r) ↔ Compatible a.dims b.dims := by
  rw [Compatible, ← C02_merge_succeeds_iff a.dims b.dims ha.wf hb.wf ha.valid hb.valid]
  unfold Arr.zip
  cases Dims.merge a.dims b.dims <;> simp

theorem or_ok {a b r : MaskVar} (ha : a.arr.Ok) (hb : b.arr.Ok) (h : a.or b = .ok r) :
    r.arr.Ok ∧ r.Plain ∧ (∀ p, p ∈ r.arr.dims ↔ p ∈ a.arr.dims ∨ p ∈ b.arr.dims) ∧
      r.arr.val = (fun c => a.arr.val c || b.arr.val c) ∧ a.Plain ∧ b.Plain := by
  unfold MaskVar.or at h
  split at h
  · simp at h
  · rename_i h1
    split at h
    · simp at h
    · rename_i h2
      cases hz : Arr.zip (fun x y => x || y) a.arr b.arr with
      | error e => rw [hz] at h; simp at h
      | ok arr =>
        rw [hz] at h
        injection h with h
        subst h
        obtain ⟨z1, z2, z3⟩ := zip_ok ha hb hz
        simp at h1 h2
        exact ⟨z1, ⟨rfl, rfl⟩, z2, z3, ⟨h1.1, h2.1⟩, ⟨h1.2, h2.2⟩⟩

theorem or_exists {a b : MaskVar} (ha : a.arr.Ok) (hb : b.arr.Ok) :
    (∃ r, a.or b = .ok r) ↔ a.Plain ∧ b.Plain ∧ Compatible a.arr.dims b.arr.dims := by
  constructor
  · rintro ⟨r, h⟩
    obtain ⟨_, _, _, _, pa, pb⟩ := or_ok ha hb h
    refine ⟨pa, pb, (zip_exists (f := fun x y => x || y) ha hb).1 ?_⟩
    unfold MaskVar.or at h
    rw [if_neg (by simp [pa.bool, pb.bool]), if_neg (by simp [pa.unit, pb.unit])] at h
    cases hz : Arr.zip (fun x y => x || y) a.arr b.arr with
    | error e => rw [hz] at h; simp at h
    | ok arr => exact ⟨arr, rfl⟩
  · rintro ⟨pa, pb, hc⟩
    obtain ⟨arr, hz⟩ := (zip_exists (f := fun x y => x || y) ha hb).2 hc
    refine ⟨⟨arr, true, true, false⟩, ?_⟩
    unfold MaskVar.or
    rw [if_neg (by simp [pa.bool, pb.bool]), if_neg (by simp [pa.unit, pb.unit]), hz]

theorem orInPlace_iff {a b r : MaskVar} (ha : a.arr.Ok) (hb : b.arr.Ok) :
    a.orInPlace b = .ok r ↔ a.readonly = false ∧ a.Plain ∧ b.Plain ∧ (∀ p ∈ b.arr.dims, p ∈ a.arr.dims) ∧
      r = { a with arr := ⟨a.arr.dims, fun c => a.arr.val c || b.arr.val c⟩ } := by
  rw [← includes_iff ha.wf.1 hb.wf.1]
  unfold MaskVar.orInPlace
  by_cases h1 : a.readonly = true
  · simp [h1]
  rw [if_neg h1]
  by_cases h2 : a.isBool = true ∧ b.isBool = true
  swap
  · rw [if_pos (by simp; by_contra hc; push Not at hc; simp at hc; exact h2 hc)]
    constructor
    · intro h; cases h
    · rintro ⟨_, pa, pb, _⟩; exact absurd ⟨pa.bool, pb.bool⟩ h2
  rw [if_neg (by simp [h2])]
  by_cases h3 : a.unitNone = true ∧ b.unitNone = true
  swap
  · rw [if_pos (by simp; by_contra hc; push Not at hc; simp at hc; exact h3 hc)]
    constructor
    · intro h; cases h
    · rintro ⟨_, pa, pb, _⟩; exact absurd ⟨pa.unit, pb.unit⟩ h3
  rw [if_neg (by simp [h3])]
  by_cases h4 : Sizes.includes a.arr.dims b.arr.dims = true
  · rw [if_pos h4]
    constructor
    · intro h; injection h with h
      exact ⟨by simpa using h1, ⟨h2.1, h3.1⟩, ⟨h2.2, h3.2⟩, h4, h.symm⟩
    · rintro ⟨_, _, _, _, rfl⟩; rfl
  · rw [if_neg h4]
    constructor
    · intro h; cases h
    · rintro ⟨_, _, _, h, _⟩; exact absurd h h4

/-- `a |= b` where the dims are included. -/
theorem inPlace_arr_ok {a b : Arr Bool} (ha : a.Ok) (hb : b.Ok) (h : ∀ p ∈ b.dims, p ∈ a.dims) :
    (⟨a.dims, fun c => a.val c || b.val c⟩ : Arr Bool).Ok := by
  refine ⟨ha.wf, ha.valid, fun c c' hcc => ?_⟩
  simp only [ha.own c c' hcc, hb.own c c' (fun d hd => hcc d (labels_mono h d hd))]

theorem compatible_of_subset {a b : Dims} (ha : WF a) (h : ∀ p ∈ b, p ∈ a) : Compatible a b := by
  intro d x y hx hy
  exact (Prod.mk.injEq .. ▸ (List.inj_on_of_nodup_map ha.1 hx (h _ hy) rfl) : d = d ∧ x = y).2

/-- Combination of same-named masks in `union_or`. -/
theorem combine_ok {m item r : MaskVar} (hm : m.arr.Ok) (hi : item.arr.Ok) (h : unionOrCombine m item = .ok r) :
    (∀ p, p ∈ r.arr.dims ↔ p ∈ m.arr.dims ∨ p ∈ item.arr.dims) ∧
      r.arr.val = (fun c => m.arr.val c || item.arr.val c) := by
  unfold unionOrCombine at h
  split at h
  · simp at h
  split at h
  · simp at h
  split at h
  · obtain ⟨_, _, _, h4, rfl⟩ := (orInPlace_iff hm hi).1 h
    refine ⟨fun p => ⟨fun hp => .inl hp, fun hp => hp.elim id (h4 p)⟩, rfl⟩
  · obtain ⟨_, _, h3, h4, _⟩ := or_ok hm hi h
    exact ⟨h3, h4⟩

theorem combine_exists {m item : MaskVar} (hm : m.arr.Ok) (hi : item.arr.Ok) (hr : m.readonly = false) :
    (∃ r, unionOrCombine m item = .ok r) ↔ m.Plain ∧ item.Plain ∧ Compatible m.arr.dims item.arr.dims := by
  unfold unionOrCombine
  by_cases h1 : item.isBool = true ∧ m.isBool = true
  swap
  · rw [if_pos (by simp; by_contra hc; push Not at hc; simp at hc; exact h1 hc)]
    constructor
    · rintro ⟨r, h⟩; cases h
    · rintro ⟨pm, pi, _⟩; exact absurd ⟨pi.bool, pm.bool⟩ h1
  rw [if_neg (by simp [h1])]
  by_cases h2 : item.unitNone = true ∧ m.unitNone = true
  swap
  · rw [if_pos (by simp; by_contra hc; push Not at hc; simp at hc; exact h2 hc)]
    constructor
    · rintro ⟨r, h⟩; cases h
    · rintro ⟨pm, pi, _⟩; exact absurd ⟨pi.unit, pm.unit⟩ h2
  rw [if_neg (by simp [h2])]
  have pm : m.Plain := ⟨h1.2, h2.2⟩
  have pi : item.Plain := ⟨h1.1, h2.1⟩
  by_cases h3 : Sizes.includes m.arr.dims item.arr.dims = true
  · rw [if_pos h3]
    have hs := (includes_iff hm.wf.1 hi.wf.1).1 h3
    constructor
    · intro _; exact ⟨pm, pi, compatible_of_subset hm.wf hs⟩
    · intro _; exact ⟨_, (orInPlace_iff hm hi).2 ⟨hr, pm, pi, hs, rfl⟩⟩
  · rw [if_neg h3, or_exists hm hi]

theorem copies_lookup : ∀ (l out : List (Dim × MaskVar)) (k : Dim), (l.map Prod.fst).Nodup →
    lookupEntry (l.foldl (fun out p => insertEntry out p.1 p.2.copy) out) k =
      match lookupEntry l k with
      | some m => some m.copy
      | none => lookupEntry out k
  | [], out, k, _ => rfl
  | q :: l, out, k, hn => by
    simp only [List.map_cons, List.nodup_cons] at hn
    simp only [List.foldl_cons]
    rw [copies_lookup l _ k hn.2]
    simp only [lookupEntry]
    by_cases hk : q.1 = k
    · subst hk
      have hnone : lookupEntry l q.1 = none := lookup_none.2 hn.1
      rw [hnone]
      simp [lookup_insert]
    · rw [if_neg hk]
      cases lookupEntry l k with
      | some m => rfl
      | none => simp only [lookup_insert]; rw [if_neg (fun h => hk h.symm)]

theorem copies_keys : ∀ (l out : List (Dim × MaskVar)), ((out ++ l).map Prod.fst).Nodup →
    (l.foldl (fun out p => insertEntry out p.1 p.2.copy) out).map Prod.fst = (out ++ l).map Prod.fst
  | [], out, _ => by simp
  | q :: l, out, hn => by
    simp only [List.foldl_cons]
    have hk : q.1 ∉ out.map Prod.fst := by
      simp only [List.map_append, List.map_cons] at hn
      have := List.nodup_append.1 hn
      intro hc
      exact this.2.2 q.1 hc q.1 (by simp) rfl
    have e : (insertEntry out q.1 q.2.copy).map Prod.fst = out.map Prod.fst ++ [q.1] := by
      rw [insert_keys, if_neg hk]
    rw [copies_keys l _ (by
      rw [List.map_append, e]
      simpa using hn)]
    rw [List.map_append, e]
    simp

/-- The loop of `union_or`. -/
theorem unionOr_loop {cur : List (Dim × MaskVar)} (hcur : ∀ k m, lookupEntry cur k = some m → m.arr.Ok) :
    ∀ (l out : List (Dim × MaskVar)), (l.map Prod.fst).Nodup → (∀ p ∈ l, p.2.arr.Ok) →
      (∀ p ∈ l, lookupEntry out p.1 = (lookupEntry cur p.1).map MaskVar.copy) →
      ((∃ r, l.foldlM (unionOrStep cur) out = .ok r) ↔
        ∀ p ∈ l, ∀ m, lookupEntry cur p.1 = some m → m.Plain ∧ p.2.Plain ∧ Compatible m.arr.dims p.2.arr.dims) ∧
      ∀ r, l.foldlM (unionOrStep cur) out = .ok r →
        (∀ k, k ∉ l.map Prod.fst → lookupEntry r k = lookupEntry out k) ∧
        (∀ p ∈ l, IsMaskUnion (lookupEntry cur p.1) (some p.2) (lookupEntry r p.1)) ∧
        ((out.map Prod.fst).Nodup → (r.map Prod.fst).Nodup)
  | [], out, _, _, _ => by
    simp only [List.foldlM_nil, pure, Except.pure]
    exact ⟨by simp, fun r h => by injection h with h; subst h; simp⟩
  | q :: l, out, hn, hok, hout => by
    simp only [List.map_cons, List.nodup_cons] at hn
    simp only [List.foldlM_cons, bind, Except.bind]
    have hq := hok q (by simp)
    have hq' := hout q (by simp)
    -- the state after the first step satisfies the hypothesis for the rest
    have next : ∀ x : MaskVar, ∀ p ∈ l, lookupEntry (insertEntry out q.1 x) p.1 = (lookupEntry cur p.1).map MaskVar.copy := by
      intro x p hp
      rw [lookup_insert, if_neg]
      · exact hout p (List.mem_cons_of_mem _ hp)
      · intro he; exact hn.1 (he ▸ List.mem_map.2 ⟨p, hp, rfl⟩)
    -- what remains to be shown for the result after the first step
    have finish : ∀ x : MaskVar, IsMaskUnion (lookupEntry cur q.1) (some q.2) (some x) → ∀ r,
        l.foldlM (unionOrStep cur) (insertEntry out q.1 x) = .ok r →
        (∀ k, k ∉ (q :: l).map Prod.fst → lookupEntry r k = lookupEntry out k) ∧
        (∀ p ∈ q :: l, IsMaskUnion (lookupEntry cur p.1) (some p.2) (lookupEntry r p.1)) ∧
        ((out.map Prod.fst).Nodup → (r.map Prod.fst).Nodup) := by
      intro x hx r hr
      obtain ⟨h1, h2, h3⟩ := (unionOr_loop hcur l _ hn.2 (fun p hp => hok p (List.mem_cons_of_mem _ hp)) (next x)).2 r hr
      refine ⟨fun k hk => ?_, fun p hp => ?_, fun ho => h3 (insert_nodup ho _ _)⟩
      · simp only [List.map_cons, List.mem_cons, not_or] at hk
        rw [h1 k hk.2, lookup_insert, if_neg hk.1]
      · rcases List.mem_cons.1 hp with rfl | hp
        · rw [h1 p.1 hn.1, lookup_insert, if_pos rfl]; exact hx
        · exact h2 p hp
    have rest := fun x => (unionOr_loop hcur l (insertEntry out q.1 x) hn.2
      (fun p hp => hok p (List.mem_cons_of_mem _ hp)) (next x)).1
    cases hc : lookupEntry cur q.1 with
    | none =>
      have hstep : unionOrStep cur out q = .ok (insertEntry out q.1 q.2.copy) := by
        simp only [unionOrStep, hc]
      rw [hstep]
      refine ⟨?_, ?_⟩
      · simp only
        rw [rest]
        constructor
        · intro h p hp m hm
          rcases List.mem_cons.1 hp with rfl | hp
          · rw [hc] at hm; cases hm
          · exact h p hp m hm
        · intro h p hp; exact h p (List.mem_cons_of_mem _ hp)
      · simp only
        refine finish _ ?_
        rw [hc]
        refine ⟨by simp, fun p => ?_, fun c _ => ?_⟩
        · simp [maskDims, MaskVar.copy]
        · simp [maskedBy, MaskVar.copy]
    | some m =>
      have hm := hcur q.1 m hc
      rw [hc] at hq'
      simp only [Option.map_some] at hq'
      have hmc : m.copy.arr.Ok := hm
      have hstep : unionOrStep cur out q = match unionOrCombine m.copy q.2 with
          | .error e => .error e
          | .ok r => .ok (insertEntry out q.1 r) := by
        simp only [unionOrStep, hc, hq']
        cases unionOrCombine m.copy q.2 <;> rfl
      rw [hstep]
      have hex := combine_exists hmc hq rfl
      cases hco : unionOrCombine m.copy q.2 with
      | error e =>
        rw [hco] at hex
        simp only
        refine ⟨⟨fun ⟨r, h⟩ => (by cases h), fun h => ?_⟩, fun r h => by cases h⟩
        obtain ⟨r, hr⟩ := hex.2 (by
          obtain ⟨h1, h2, h3⟩ := h q (by simp) m hc
          exact ⟨⟨h1.bool, h1.unit⟩, h2, h3⟩)
        cases hr
      | ok x =>
        obtain ⟨pm, pi, hcomp⟩ := hex.1 ⟨x, hco⟩
        obtain ⟨k1, k2⟩ := combine_ok hmc hq hco
        simp only
        refine ⟨?_, ?_⟩
        · rw [rest]
          constructor
          · intro h p hp m' hm'
            rcases List.mem_cons.1 hp with rfl | hp
            · rw [hc] at hm'; cases hm'
              exact ⟨⟨pm.bool, pm.unit⟩, pi, hcomp⟩
            · exact h p hp m' hm'
          · intro h p hp; exact h p (List.mem_cons_of_mem _ hp)
        · refine finish _ ?_
          rw [hc]
          refine ⟨by simp, fun p => k1 p, fun c _ => ?_⟩
          simp only [maskedBy, k2]; rfl

end Scipp
