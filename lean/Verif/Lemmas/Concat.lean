import Verif.Spec.Concat
import Verif.Lemmas.Masks3
import Verif.Lemmas.SizedDict
import Mathlib.Tactic.Set
namespace Scipp.Concat
open Scipp Scipp.Sizes
variable {V : Type}

theorem extentOf_mem {s : Dims} {dim : Dim} {n : Int} (hn : (labels s).Nodup) (h : (dim, n) ∈ s) : extentOf s dim = n := by
  unfold extentOf
  induction s with
  | nil => cases h
  | cons p s ih =>
    rw [List.find?_cons]
    by_cases hp : p.1 = dim
    · have : (p.1 == dim) = true := by simpa using hp
      rw [this]
      rcases List.mem_cons.1 h with h1 | h1
      · subst h1; rfl
      · exfalso
        have := mem_labels h1
        simp only [labels, List.map_cons, List.nodup_cons] at hn
        exact hn.1 (hp ▸ this)
    · have : (p.1 == dim) = false := by simpa using hp
      rw [this]
      rcases List.mem_cons.1 h with h1 | h1
      · exact absurd (by rw [← h1]) hp
      · simp only [labels, List.map_cons, List.nodup_cons] at hn
        exact ih hn.2 h1

theorem extentOf_not_mem {s : Dims} {dim : Dim} (h : dim ∉ labels s) : extentOf s dim = 1 := by
  unfold extentOf
  have : s.find? (fun p => p.1 == dim) = none := by
    rw [List.find?_eq_none]
    intro p hp hd
    exact h (by simp only [beq_iff_eq] at hd; rw [← hd]; exact List.mem_map_of_mem hp)
  rw [this]; rfl

theorem extentOf_at? {s : Dims} {dim : Dim} {n : Int} (hn : (labels s).Nodup) (h : at? s dim = .ok n) : extentOf s dim = n :=
  extentOf_mem hn (at?_ok_mem h)

theorem extentOf_nonneg {s : Dims} (hw : WF s) (dim : Dim) : 0 ≤ extentOf s dim := by
  by_cases h : dim ∈ labels s
  · obtain ⟨n, hn⟩ := at?_ok_of_mem_labels h
    rw [extentOf_at? hw.1 hn]
    exact hw.2 _ (at?_ok_mem hn)
  · rw [extentOf_not_mem h]; omega

theorem mapM_get {α β : Type} (f : α → Except Err β) : ∀ (l : List α) (r : List β), l.mapM f = .ok r →
    r.length = l.length ∧ ∀ (i : Nat) a, l[i]? = some a → ∃ b, r[i]? = some b ∧ f a = .ok b
  | [], r, h => by
    have : r = [] := by
      rw [List.mapM_nil] at h
      exact (Except.ok.inj h).symm
    subst this
    exact ⟨rfl, by simp⟩
  | a :: l, r, h => by
    rw [List.mapM_cons] at h
    cases h1 : f a with
    | error e => rw [h1] at h; cases h
    | ok b =>
      rw [h1] at h
      cases h2 : l.mapM f with
      | error e => rw [h2] at h; cases h
      | ok bs =>
        rw [h2] at h
        have : r = b :: bs := (Except.ok.inj h).symm
        subst this
        obtain ⟨h3, h4⟩ := mapM_get f l bs h2
        refine ⟨by simp [h3], ?_⟩
        intro i x hx
        cases i with
        | zero =>
          simp only [List.getElem?_cons_zero, Option.some.injEq] at hx
          subst hx
          exact ⟨b, rfl, h1⟩
        | succ i => exact h4 i x (by simpa using hx)

theorem mapM_exists {α β : Type} (f : α → Except Err β) : ∀ (l : List α), (∀ a ∈ l, ∃ b, f a = .ok b) → ∃ r, l.mapM f = .ok r
  | [], _ => ⟨[], rfl⟩
  | a :: l, h => by
    obtain ⟨b, hb⟩ := h a (by simp)
    obtain ⟨bs, hbs⟩ := mapM_exists f l (fun x hx => h x (by simp [hx]))
    exact ⟨b :: bs, by rw [List.mapM_cons, hb, hbs]; rfl⟩

theorem sum_nonneg_list : ∀ {l : List Int}, (∀ x ∈ l, 0 ≤ x) → 0 ≤ l.sum
  | [], _ => by simp
  | x :: l, h => by
    have h1 := h x (by simp)
    have h2 := sum_nonneg_list (l := l) (fun y hy => h y (by simp [hy]))
    rw [List.sum_cons]; omega

theorem upd_upd_self (c : Dim → Int) (d : Dim) (x : Int) : upd (upd c d x) d (c d) = c := by
  funext e
  unfold upd
  by_cases h : e = d
  · rw [if_pos h, h]
  · rw [if_neg h, if_neg h]

theorem upd_same (c : Dim → Int) (d : Dim) (x : Int) : upd c d x d = x := by simp [upd]

/-! ### resizing -/

theorem resize_mem {s s' : Dims} {d : Dim} {x : Int} (hn : (labels s).Nodup) (h : resize s d x = .ok s') :
    (d, x) ∈ s' ∧ labels s' = labels s ∧ ∀ p : Dim × Int, p.1 ≠ d → (p ∈ s' ↔ p ∈ s) := by
  unfold resize at h
  split at h
  · cases h
  · have hmem : d ∈ labels s := by
      by_contra hc
      have : assign s d x = .error .dimension := by
        clear h hn
        induction s with
        | nil => rfl
        | cons p s ih =>
          simp only [labels, List.map_cons, List.mem_cons, not_or] at hc
          obtain ⟨k, v⟩ := p
          rw [assign, if_neg (fun hk => hc.1 hk.symm), ih hc.2]; rfl
      rw [this] at h; cases h
    obtain ⟨pre, n, post, rfl, hpre⟩ := split_label hmem
    rw [assign_mid hpre] at h
    have : s' = pre ++ (d, x) :: post := (Except.ok.inj h).symm
    subst this
    refine ⟨by simp, by simp [labels], ?_⟩
    intro p hp
    simp only [List.mem_append, List.mem_cons]
    constructor
    · rintro (h1 | h1 | h1)
      · exact .inl h1
      · exact absurd (by rw [h1]) hp
      · exact .inr (.inr h1)
    · rintro (h1 | h1 | h1)
      · exact .inl h1
      · exact absurd (by rw [h1]) hp
      · exact .inr (.inr h1)

theorem resize_exists {s : Dims} {d : Dim} {x : Int} (h : d ∈ labels s) (hx : 0 ≤ x) : ∃ s', resize s d x = .ok s' := by
  obtain ⟨pre, n, post, rfl, hpre⟩ := split_label h
  refine ⟨pre ++ (d, x) :: post, ?_⟩
  unfold resize
  rw [if_neg (by omega), assign_mid hpre]

theorem offset_exists {s : Dims} {d : Dim} (h : d ∈ labels s) : ∃ k, Dims.offset s d = .ok k := by
  induction s with
  | nil => cases h
  | cons p s ih =>
    obtain ⟨k, v⟩ := p
    unfold Dims.offset
    by_cases hk : k = d
    · rw [if_pos hk]; exact ⟨_, rfl⟩
    · rw [if_neg hk]
      refine ih ?_
      simp only [labels, List.map_cons, List.mem_cons] at h
      rcases h with h | h
      · exact absurd h.symm hk
      · exact h

/-! ### copying into slices -/

theorem copySlice_ok {dim : Dim} {st r : CVar V × Int} {x : CVar V} (hw : WF st.1.dims) (h : copySlice dim st x = .ok r) (hx : WF x.dims) :
    (dim, extentOf x.dims dim) ∈ x.dims ∧ r.2 = st.2 + extentOf x.dims dim ∧ r.1.arr.dims = st.1.arr.dims ∧
      (∀ p ∈ x.dims, p.1 ≠ dim → p ∈ st.1.dims) ∧ x.kind = st.1.kind ∧ r.1.kind = st.1.kind ∧ r.1.unit = x.unit ∧
      ∀ c, r.1.arr.val c = if st.2 ≤ c dim ∧ c dim < st.2 + extentOf x.dims dim then x.arr.val (upd c dim (c dim - st.2))
        else st.1.arr.val c := by
  unfold copySlice at h
  cases h1 : at? x.dims dim with
  | error e => rw [h1] at h; cases h
  | ok extent =>
    have hext := extentOf_at? hx.1 h1
    rw [h1] at h
    cases h2 : Slice.range dim st.2 (st.2 + extent) with
    | error e => simp only [h2] at h; cases h
    | ok p =>
      simp only [h2] at h
      cases h3 : Sizes.slice st.1.dims p with
      | error e => simp only [h3] at h; cases h
      | ok sdims =>
        simp only [h3] at h
        cases h4 : canSetUnit st.1.dims sdims dim st.2 with
        | error e => simp only [h4] at h; cases h
        | ok can =>
          simp only [h4] at h
          by_cases h5 : Sizes.includes sdims x.dims = false
          · rw [if_pos h5] at h; cases h
          · rw [if_neg h5] at h
            by_cases h6 : st.1.unit ≠ x.unit ∧ can = false
            · rw [if_pos h6] at h; cases h
            · rw [if_neg h6] at h
              by_cases h7 : st.1.kind ≠ x.kind
              · rw [if_pos h7] at h; cases h
              · rw [if_neg h7] at h
                have hr := (Except.ok.inj h).symm
                subst hr
                have hp : p = ⟨dim, st.2, st.2 + extent, 1⟩ ∧ 0 ≤ st.2 ∧ (st.2 + extent ≠ -1 → st.2 ≤ st.2 + extent) := by
                  unfold Slice.range at h2
                  by_cases g1 : st.2 < 0
                  · rw [if_pos g1] at h2; cases h2
                  · rw [if_neg g1] at h2
                    by_cases g2 : st.2 + extent ≠ -1 ∧ st.2 > st.2 + extent
                    · rw [if_pos g2] at h2; cases h2
                    · rw [if_neg g2, if_neg (by decide), if_neg (by decide)] at h2
                      refine ⟨(Except.ok.inj h2).symm, by omega, fun g3 => ?_⟩
                      by_contra g4
                      exact g2 ⟨g3, by omega⟩
                obtain ⟨rfl, hp1, hp2⟩ := hp
                have hmem := at?_ok_mem h1
                have h0 := hx.2 _ hmem
                dsimp only at h0
                have hsl : ∃ n, resize st.1.dims dim n = .ok sdims := by
                  unfold Sizes.slice at h3
                  cases g1 : validSlice st.1.dims ⟨dim, st.2, st.2 + extent, 1⟩ with
                  | error e => rw [g1] at h3; cases h3
                  | ok u =>
                    rw [g1] at h3
                    have g2 : (⟨dim, st.2, st.2 + extent, 1⟩ : Slice) ≠ Slice.none := by
                      intro hc
                      have := congrArg Slice.start hc
                      simp only [Slice.none] at this
                      omega
                    have g3 : (⟨dim, st.2, st.2 + extent, 1⟩ : Slice).isRange = true := by
                      unfold Slice.isRange; simp only [ne_eq, decide_not, Bool.not_eq_true', decide_eq_false_iff_not]; omega
                    change (if (⟨dim, st.2, st.2 + extent, 1⟩ : Slice) = Slice.none then _ else _) = _ at h3
                    rw [if_neg g2, if_pos g3] at h3
                    exact ⟨_, h3⟩
                obtain ⟨n, hsl⟩ := hsl
                obtain ⟨s1, s2, s3⟩ := resize_mem hw.1 hsl
                have hsw := resize_WF hsl hw
                have hinc := (includes_iff hsw.1 hx.1).1 (by simpa using h5)
                refine ⟨by rw [hext]; exact hmem, by rw [hext], rfl, fun q hq hqd => (s3 q hqd).1 (hinc q hq), ?_, rfl, rfl, ?_⟩
                · by_contra hk; exact h7 (fun hk' => hk hk'.symm)
                · intro c; rw [hext]

theorem copy_loop {dim : Dim} {D : Dims} (hD : WF D) (hdim : dim ∈ labels D) : ∀ (l pre : List (CVar V)) (st r : CVar V × Int),
    (∀ x ∈ l, x.arr.Ok) → (∀ x ∈ pre, WF x.dims) → st.1.dims = D → st.1.arr.Ok → st.2 = ((pre.map (fun x => extentOf x.dims dim)).sum) →
    (∀ i x, pre[i]? = some x → ∀ c, 0 ≤ c dim → c dim < extentOf x.dims dim →
      st.1.arr.val (upd c dim (offsetAt (pre.map CVar.dims) dim i + c dim)) = x.arr.val c) →
    l.foldlM (copySlice dim) st = .ok r →
    r.1.dims = D ∧ r.1.arr.Ok ∧ r.1.kind = st.1.kind ∧ (∀ x ∈ l, dim ∈ labels x.dims ∧ (∀ p ∈ x.dims, p.1 ≠ dim → p ∈ D) ∧ x.kind = st.1.kind) ∧
      (∀ i x, (pre ++ l)[i]? = some x → ∀ c, 0 ≤ c dim → c dim < extentOf x.dims dim →
        r.1.arr.val (upd c dim (offsetAt ((pre ++ l).map CVar.dims) dim i + c dim)) = x.arr.val c)
  | [], pre, st, r, _, _, hd, hok, _, hpre, h => by
    have : r = st := (Except.ok.inj h).symm
    subst this
    simp only [List.append_nil]
    exact ⟨hd, hok, by first | rfl | trivial, by simp, hpre⟩
  | x :: l, pre, st, r, hl, hpw, hd, hok, hoff, hpre, h => by
    rw [List.foldlM_cons] at h
    cases h1 : copySlice dim st x with
    | error e => rw [h1] at h; cases h
    | ok st' =>
      rw [h1] at h
      replace h : l.foldlM (copySlice dim) st' = .ok r := h
      have hxo := hl x (by simp)
      have hd' : st.1.arr.dims = D := hd
      obtain ⟨a1, a2, a3, a4, a5, a6, _, a7⟩ := copySlice_ok (by rw [hd]; exact hD) h1 hxo.wf
      have hdimx : dim ∈ labels x.dims := mem_labels a1
      have hlx : ∀ d ∈ labels x.dims, d ∈ labels D := by
        intro d hdx
        by_cases hdd : d = dim
        · rw [hdd]; exact hdim
        · obtain ⟨n, hn⟩ := at?_ok_of_mem_labels hdx
          have := a4 _ (at?_ok_mem hn) hdd
          rw [hd] at this
          exact mem_labels this
      have hok' : st'.1.arr.Ok := by
        refine ⟨by rw [a3]; exact hok.wf, by rw [a3]; exact hok.valid, ?_⟩
        intro c c' hc
        have hcd : c dim = c' dim := hc dim (by rw [a3, hd']; exact hdim)
        rw [a7, a7, hcd]
        have e1 : x.arr.val (upd c dim (c' dim - st.2)) = x.arr.val (upd c' dim (c' dim - st.2)) := by
          refine hxo.own _ _ (fun d hdx => ?_)
          unfold upd
          by_cases hdd : d = dim
          · rw [if_pos hdd, if_pos hdd]
          · rw [if_neg hdd, if_neg hdd]
            exact hc d (by rw [a3, hd']; exact hlx d hdx)
        have e2 : st.1.arr.val c = st.1.arr.val c' := hok.own _ _ (fun d hdx => hc d (by rw [a3]; exact hdx))
        rw [e1, e2]
      have hpre' : ∀ i y, (pre ++ [x])[i]? = some y → ∀ c, 0 ≤ c dim → c dim < extentOf y.dims dim →
          st'.1.arr.val (upd c dim (offsetAt ((pre ++ [x]).map CVar.dims) dim i + c dim)) = y.arr.val c := by
        intro i y hy c hc0 hc1
        by_cases hi : i < pre.length
        · rw [List.getElem?_append_left hi] at hy
          have hyw : WF y.dims := hpw y (List.mem_of_getElem? hy)
          have hoff' : offsetAt ((pre ++ [x]).map CVar.dims) dim i = offsetAt (pre.map CVar.dims) dim i := by
            unfold offsetAt
            rw [List.map_append, List.take_append_of_le_length (by simp; omega)]
          have hlt : offsetAt (pre.map CVar.dims) dim i + extentOf y.dims dim ≤ st.2 := by
            rw [hoff]
            have hsplit : pre = pre.take i ++ y :: pre.drop (i + 1) := by
              have : pre[i] = y := by
                rw [List.getElem?_eq_getElem hi] at hy
                exact Option.some.inj hy
              rw [← this]
              simp
            have hsum : (pre.map (fun x => extentOf x.dims dim)).sum = offsetAt (pre.map CVar.dims) dim i + extentOf y.dims dim +
                ((pre.drop (i + 1)).map (fun x => extentOf x.dims dim)).sum := by
              conv => lhs; rw [hsplit]
              unfold offsetAt
              rw [List.map_append, List.sum_append, List.map_cons, List.sum_cons, ← List.map_take, List.map_map]
              simp only [Function.comp_def]
              omega
            have hnn : 0 ≤ ((pre.drop (i + 1)).map (fun x => extentOf x.dims dim)).sum := by
              refine sum_nonneg_list ?_
              intro z hz
              obtain ⟨w, hw, rfl⟩ := List.mem_map.1 hz
              exact extentOf_nonneg (hpw w (List.mem_of_mem_drop hw)) dim
            omega
          rw [hoff', a7, upd_same, if_neg (by omega)]
          exact hpre i y hy c hc0 hc1
        · have hi' : i = pre.length := by
            have := (List.getElem?_eq_some_iff.1 hy).1
            simp at this
            omega
          subst hi'
          simp at hy
          subst hy
          have hoff' : offsetAt ((pre ++ [x]).map CVar.dims) dim pre.length = st.2 := by
            unfold offsetAt
            rw [hoff, List.map_append, List.take_append_of_le_length (by simp), ← List.map_take, List.take_length, List.map_map]
            rfl
          rw [hoff', a7, upd_same, if_pos (by omega)]
          have : st.2 + c dim - st.2 = c dim := by omega
          rw [this, upd_upd_self]
      have ih := copy_loop hD hdim l (pre ++ [x]) st' r (fun y hy => hl y (by simp [hy]))
        (fun y hy => by
          rcases List.mem_append.1 hy with hy | hy
          · exact hpw y hy
          · simp at hy; subst hy; exact hxo.wf)
        (by rw [← hd]; exact a3) hok' (by rw [a2, hoff]; simp) hpre' h
      obtain ⟨b1, b2, b3, b4, b5⟩ := ih
      refine ⟨b1, b2, by rw [b3, a6], ?_, ?_⟩
      · intro y hy
        rcases List.mem_cons.1 hy with rfl | hy
        · exact ⟨hdimx, fun p hp hpd => by rw [← hd]; exact a4 p hp hpd, a5⟩
        · obtain ⟨q1, q2, q3⟩ := b4 y hy
          exact ⟨q1, q2, by rw [q3, a6]⟩
      · have : pre ++ [x] ++ l = pre ++ x :: l := by simp
        rw [this] at b5
        exact b5

/-! ### concat -/

theorem expandedDims_ok {vars : List (CVar V)} {front : CVar V} {dim : Dim} {E : Dims} (hf : front ∈ vars) (hv : ∀ x ∈ vars, x.arr.Ok)
    (h : expandedDims vars front dim = .ok E) : WF E ∧ Dim.invalid ∉ labels E ∧ (dim, 1) ∈ E ∧ ∃ x ∈ vars, SameOther dim x.dims E := by
  unfold expandedDims at h
  cases h1 : vars.find? (fun x => Sizes.contains x.dims dim) with
  | none =>
    rw [h1] at h
    have hfo := hv front hf
    unfold Dims.add at h
    by_cases g1 : dim = Dim.invalid
    · simp only [if_pos g1] at h; cases h
    · simp only [if_neg g1] at h
      rw [if_neg (by decide)] at h
      have hw := insertLeft_WF h (by decide) hfo.wf
      obtain ⟨g3, g2⟩ := insertLeft_ok h
      subst g3
      refine ⟨hw, ?_, by simp, front, hf, ?_⟩
      · simp only [labels, List.map_cons, List.mem_cons, not_or]
        exact ⟨fun hc => g1 hc.symm, hfo.valid⟩
      · intro p hp
        simp only [List.mem_cons]
        constructor
        · exact .inr
        · rintro (h2 | h2)
          · exact absurd (by rw [h2]) hp
          · exact h2
  | some x =>
    rw [h1] at h
    have hx := List.mem_of_find?_eq_some h1
    have hxo := hv x hx
    obtain ⟨a1, a2, a3⟩ := resize_mem hxo.wf.1 h
    exact ⟨resize_WF h hxo.wf, by rw [a2]; exact hxo.valid, a1, x, hx, fun p hp => (a3 p hp).symm⟩

theorem expand_ok {E : Dims} {dim : Dim} (hE : WF E) (hEi : Dim.invalid ∉ labels E) (hd : (dim, 1) ∈ E) {x y : CVar V} (hx : x.arr.Ok)
    (h : expand E dim x = .ok y) : y.arr.Ok ∧ y.unit = x.unit ∧ y.kind = x.kind ∧ y.arr.val = x.arr.val ∧
      extentOf y.dims dim = extentOf x.dims dim ∧ (∀ p ∈ x.dims, p ∈ y.dims) ∧ (∀ p ∈ y.dims, p ∈ x.dims ∨ p ∈ E) ∧
      (dim ∈ labels x.dims → y = x) ∧ (dim ∉ labels x.dims → y.dims = E) := by
  unfold expand at h
  by_cases h1 : Sizes.contains x.dims dim
  · rw [if_pos h1] at h
    have := Except.ok.inj h
    subst this
    exact ⟨hx, rfl, rfl, rfl, rfl, fun p hp => hp, fun p hp => .inl hp, fun _ => rfl, fun hc => absurd (contains_iff.1 h1) hc⟩
  · rw [if_neg h1] at h
    unfold CVar.broadcast at h
    by_cases h2 : Sizes.includes E x.dims = false
    · rw [if_pos h2] at h; cases h
    · rw [if_neg h2] at h
      have := (Except.ok.inj h).symm
      subst this
      have hinc := (includes_iff hE.1 hx.wf.1).1 (by simpa using h2)
      have hnd : dim ∉ labels x.dims := fun hc => h1 (contains_iff.2 hc)
      refine ⟨⟨hE, hEi, ?_⟩, rfl, rfl, rfl, ?_, hinc, fun p hp => .inr hp, fun hc => absurd hc hnd, fun _ => rfl⟩
      · intro c c' hc
        exact hx.own c c' (fun d hd => hc d (labels_mono hinc d hd))
      · show extentOf E dim = _
        rw [extentOf_mem hE.1 hd, extentOf_not_mem hnd]

theorem totalSize_ok {dim : Dim} : ∀ {l : List (CVar V)} {n : Int}, (∀ x ∈ l, WF x.dims) → totalSize dim l = .ok n →
    n = (l.map (fun x => extentOf x.dims dim)).sum
  | [], n, _, h => by
    have := Except.ok.inj h
    subst this
    rfl
  | x :: l, n, hl, h => by
    unfold totalSize at h
    cases h1 : at? x.dims dim with
    | error e => rw [h1] at h; cases h
    | ok a =>
      rw [h1] at h
      cases h2 : totalSize dim l with
      | error e => simp only [h2] at h; cases h
      | ok b =>
        simp only [h2] at h
        have h3 := Except.ok.inj h
        subst h3
        have := totalSize_ok (fun y hy => hl y (by simp [hy])) h2
        rw [List.map_cons, List.sum_cons, extentOf_at? (hl x (by simp)).1 h1, this]

theorem totalSize_exists {dim : Dim} : ∀ {l : List (CVar V)}, (∀ x ∈ l, dim ∈ labels x.dims) → ∃ n, totalSize dim l = .ok n
  | [], _ => ⟨0, rfl⟩
  | x :: l, hl => by
    obtain ⟨a, ha⟩ := at?_ok_of_mem_labels (hl x (by simp))
    obtain ⟨b, hb⟩ := totalSize_exists (l := l) (fun y hy => hl y (by simp [hy]))
    exact ⟨a + b, by unfold totalSize; rw [ha]; simp only [hb]⟩

/-- The result of `concat`. -/
theorem concat_spec {junk : V} {vars : List (CVar V)} {dim : Dim} {r : CVar V} (hv : ∀ x ∈ vars, x.arr.Ok)
    (h : concat junk vars dim = .ok r) :
    r.arr.Ok ∧ (dim, (vars.map (fun x => extentOf x.dims dim)).sum) ∈ r.dims ∧
      (∀ x ∈ vars, ∀ p ∈ x.dims, p.1 ≠ dim → p ∈ r.dims) ∧ (∀ p ∈ r.dims, p.1 ≠ dim → ∃ x ∈ vars, p ∈ x.dims) ∧
      (∀ x ∈ vars, x.kind = r.kind) ∧
      ∀ i x, vars[i]? = some x → ∀ c, 0 ≤ c dim → c dim < extentOf x.dims dim →
        r.arr.val (upd c dim (offsetAt (vars.map CVar.dims) dim i + c dim)) = x.arr.val c := by
  cases vars with
  | nil => cases h
  | cons front rest =>
    have hvars : ∃ vars, vars = front :: rest := ⟨_, rfl⟩
    obtain ⟨vars, hvars⟩ := hvars
    simp only [concat] at h
    rw [← hvars] at h hv ⊢
    cases h1 : expandedDims vars front dim with
    | error e => simp only [h1] at h; cases h
    | ok E =>
      simp only [h1] at h
      obtain ⟨e1, e2, e3, w, hw, e4⟩ := expandedDims_ok (by simp [hvars]) hv h1
      cases h2 : vars.mapM (expand E dim) with
      | error e => simp only [h2] at h; cases h
      | ok tmp =>
        simp only [h2] at h
        obtain ⟨t1, t2⟩ := mapM_get _ _ _ h2
        have t3 : ∀ y ∈ tmp, ∃ x ∈ vars, expand E dim x = .ok y := by
          intro y hy
          obtain ⟨i, hi, hiy⟩ := List.getElem_of_mem hy
          obtain ⟨b, hb1, hb2⟩ := t2 i vars[i] (List.getElem?_eq_getElem (by omega))
          rw [List.getElem?_eq_getElem hi, Option.some.injEq, hiy] at hb1
          subst hb1
          exact ⟨_, List.getElem_mem _, hb2⟩
        have hto : ∀ y ∈ tmp, y.arr.Ok := by
          intro y hy
          obtain ⟨x, hx, hxy⟩ := t3 y hy
          exact (expand_ok e1 e2 e3 (hv x hx) hxy).1
        have hext : tmp.map (fun x => extentOf x.dims dim) = vars.map (fun x => extentOf x.dims dim) := by
          refine List.ext_getElem (by simp [t1]) (fun i i1 i2 => ?_)
          simp only [List.length_map] at i1 i2
          obtain ⟨b, hb1, hb2⟩ := t2 i vars[i] (List.getElem?_eq_getElem i2)
          rw [List.getElem?_eq_getElem i1, Option.some.injEq] at hb1
          rw [List.getElem_map, List.getElem_map, hb1]
          exact (expand_ok e1 e2 e3 (hv _ (List.getElem_mem i2)) hb2).2.2.2.2.1
        cases h3 : totalSize dim tmp with
        | error e => simp only [h3] at h; cases h
        | ok size =>
          simp only [h3] at h
          have hsize := totalSize_ok (fun y hy => (hto y hy).wf) h3
          cases h4 : resize E dim size with
          | error e => simp only [h4] at h; cases h
          | ok D =>
            simp only [h4] at h
            obtain ⟨d1, d2, d3⟩ := resize_mem e1.1 h4
            have hDw := resize_WF h4 e1
            cases h5 : tmp.foldlM (copySlice dim) ((⟨⟨D, fun _ => junk⟩, front.unit, front.kind⟩ : CVar V), (0 : Int)) with
            | error e => simp only [h5] at h; cases h
            | ok res =>
              simp only [h5] at h
              have hr := (Except.ok.inj h).symm
              subst hr
              obtain ⟨r1, r2, r3, r4, r5⟩ := copy_loop hDw (mem_labels d1) tmp [] _ res hto (by simp) rfl
                ⟨hDw, by rw [d2]; exact e2, fun _ _ _ => rfl⟩ rfl (by simp) h5
              rw [List.nil_append] at r5
              refine ⟨r2, ?_, ?_, ?_, ?_, ?_⟩
              · rw [r1, ← hext, ← hsize]; exact d1
              · intro x hx p hp hpd
                obtain ⟨i, hi, hix⟩ := List.getElem_of_mem hx
                obtain ⟨b, hb1, hb2⟩ := t2 i x (by rw [List.getElem?_eq_getElem hi, hix])
                rw [r1]
                exact (r4 b (List.mem_of_getElem? hb1)).2.1 p ((expand_ok e1 e2 e3 (hv x hx) hb2).2.2.2.2.2.1 p hp) hpd
              · intro p hp hpd
                rw [r1] at hp
                exact ⟨w, hw, (e4 p hpd).2 ((d3 p hpd).1 hp)⟩
              · intro x hx
                obtain ⟨i, hi, hix⟩ := List.getElem_of_mem hx
                obtain ⟨b, hb1, hb2⟩ := t2 i x (by rw [List.getElem?_eq_getElem hi, hix])
                rw [r3, ← (r4 b (List.mem_of_getElem? hb1)).2.2]
                exact (expand_ok e1 e2 e3 (hv x hx) hb2).2.2.1.symm
              · intro i x hx c hc hcd
                obtain ⟨b, hb1, hb2⟩ := t2 i x hx
                obtain ⟨f1, _, _, f4, f5, _⟩ := expand_ok e1 e2 e3 (hv x (List.mem_of_getElem? hx)) hb2
                have hoff : offsetAt (tmp.map CVar.dims) dim i = offsetAt (vars.map CVar.dims) dim i := by
                  unfold offsetAt
                  rw [← List.map_take, ← List.map_take, List.map_map, List.map_map]
                  have := congrArg (fun l => (l.take i).sum) hext
                  simpa only [List.map_take, Function.comp_def] using this
                rw [← hoff, ← f4]
                exact r5 i b hb1 c hc (by rw [f5]; exact hcd)

/-! ### success -/

theorem slice_range_ok {D : Dims} {dim : Dim} {N b n : Int} (hD : WF D) (hN : (dim, N) ∈ D) (hb : 0 ≤ b) (hn : 0 ≤ n) (hle : b + n ≤ N) :
    ∃ S, Slice.range dim b (b + n) = .ok ⟨dim, b, b + n, 1⟩ ∧ Sizes.slice D ⟨dim, b, b + n, 1⟩ = .ok S ∧ resize D dim n = .ok S := by
  obtain ⟨S, hS⟩ := resize_exists (mem_labels hN) hn
  refine ⟨S, ?_, ?_, hS⟩
  · unfold Slice.range
    rw [if_neg (by omega), if_neg (by omega), if_neg (by decide), if_neg (by decide)]
  · unfold Sizes.slice
    have g2 : (⟨dim, b, b + n, 1⟩ : Slice) ≠ Slice.none := by
      intro hc
      have := congrArg Slice.start hc
      simp only [Slice.none] at this
      omega
    have g3 : (⟨dim, b, b + n, 1⟩ : Slice).isRange = true := by
      unfold Slice.isRange
      simp only [ne_eq, decide_not, Bool.not_eq_true', decide_eq_false_iff_not]; omega
    have g1 : validSlice D ⟨dim, b, b + n, 1⟩ = .ok () := by
      unfold validSlice
      rw [if_neg g2]
      simp only [at?_of_mem hD.1 hN]
      rw [if_neg (by rw [if_neg (by omega)]; omega)]
    rw [g1]
    change (if (⟨dim, b, b + n, 1⟩ : Slice) = Slice.none then _ else _) = _
    rw [if_neg g2, if_pos g3]
    have : sliceExtent b (b + n) 1 = n := by rw [sliceExtent_one (by omega)]; omega
    rw [this]; exact hS

theorem copySlice_exists {dim : Dim} {st : CVar V × Int} {x : CVar V} {N n : Int} (hw : WF st.1.dims) (hx : WF x.dims)
    (hN : (dim, N) ∈ st.1.dims) (hn : (dim, n) ∈ x.dims) (h0 : 0 ≤ st.2) (hle : st.2 + n ≤ N)
    (ho : ∀ p ∈ x.dims, p.1 ≠ dim → p ∈ st.1.dims) (hu : st.1.unit = x.unit) (hk : st.1.kind = x.kind) :
    ∃ r, copySlice dim st x = .ok r := by
  obtain ⟨S, s1, s2, s3⟩ := slice_range_ok hw hN h0 (hx.2 _ hn) hle
  obtain ⟨k, hoff⟩ := offset_exists (mem_labels hN)
  obtain ⟨m1, m2, m3⟩ := resize_mem hw.1 s3
  have hinc : Sizes.includes S x.dims = true := by
    rw [includes_iff (resize_WF s3 hw).1 hx.1]
    intro p hp
    by_cases hd : p.1 = dim
    · have : p.2 = n := by
        have h1 := at?_of_mem hx.1 hn
        have h2 := at?_of_mem (s := x.dims) (d := dim) (x := p.2) hx.1 (by rw [← hd]; exact hp)
        rw [h1] at h2
        exact (Except.ok.inj h2).symm
      have : p = (dim, n) := by rw [← hd, ← this]
      rw [this]; exact m1
    · exact (m3 p hd).2 (ho p hp hd)
  unfold copySlice
  simp only [at?_of_mem hx.1 hn, s1, s2, canSetUnit, hoff, hinc]
  rw [if_neg (by simp), if_neg (fun hc => hc.1 hu), if_neg (fun hc => hc hk)]
  exact ⟨_, rfl⟩

theorem copy_loop_exists {dim : Dim} {N : Int} {D : Dims} (hD : WF D) (hN : (dim, N) ∈ D) : ∀ (l : List (CVar V)) (st : CVar V × Int),
    (∀ x ∈ l, WF x.dims ∧ dim ∈ labels x.dims ∧ (∀ p ∈ x.dims, p.1 ≠ dim → p ∈ D) ∧ x.unit = st.1.unit ∧ x.kind = st.1.kind) →
    st.1.dims = D → 0 ≤ st.2 → st.2 + (l.map (fun x => extentOf x.dims dim)).sum ≤ N → ∃ r, l.foldlM (copySlice dim) st = .ok r
  | [], st, _, _, _, _ => ⟨st, rfl⟩
  | x :: l, st, hl, hd, h0, hle => by
    obtain ⟨x1, x2, x3, x4, x5⟩ := hl x (by simp)
    obtain ⟨n, hn⟩ := at?_ok_of_mem_labels x2
    have hnn : 0 ≤ (l.map (fun x => extentOf x.dims dim)).sum := by
      refine sum_nonneg_list ?_
      intro z hz
      obtain ⟨w, hw, rfl⟩ := List.mem_map.1 hz
      exact extentOf_nonneg (hl w (by simp [hw])).1 dim
    rw [List.map_cons, List.sum_cons, extentOf_at? x1.1 hn] at hle
    have hw : WF st.1.dims := by rw [hd]; exact hD
    obtain ⟨st', hst⟩ := copySlice_exists (st := st) (x := x) (N := N) (n := n) hw x1 (by rw [hd]; exact hN)
      (at?_ok_mem hn) h0 (by omega) (by rw [hd]; exact x3) x4.symm x5.symm
    obtain ⟨a1, a2, a3, _, _, a6, a7, _⟩ := copySlice_ok hw hst x1
    have hnx := x1.2 _ (at?_ok_mem hn)
    dsimp only at hnx
    have hext := extentOf_at? x1.1 hn
    obtain ⟨r, hr⟩ := copy_loop_exists hD hN l st' (fun y hy => by
      obtain ⟨y1, y2, y3, y4, y5⟩ := hl y (by simp [hy])
      exact ⟨y1, y2, y3, by rw [a7, y4, x4], by rw [a6, y5]⟩) (by rw [← hd]; exact a3) (by rw [a2]; omega) (by rw [a2]; omega)
    exact ⟨r, by rw [List.foldlM_cons, hst]; exact hr⟩

theorem concat_exists {junk : V} {vars : List (CVar V)} {dim : Dim} {O : Dims} {u k : Nat} (hv : ∀ x ∈ vars, x.arr.Ok) (hne : vars ≠ [])
    (hdim : dim ≠ Dim.invalid) (ho : ∀ x ∈ vars, SameOther dim x.dims O) (hu : ∀ x ∈ vars, x.unit = u ∧ x.kind = k) :
    ∃ r, concat junk vars dim = .ok r := by
  cases vars with
  | nil => exact absurd rfl hne
  | cons front rest =>
    have hvars : ∃ vars, vars = front :: rest := ⟨_, rfl⟩
    obtain ⟨vars, hvars⟩ := hvars
    simp only [concat]
    rw [← hvars] at hv ho hu ⊢
    have hf : front ∈ vars := by simp [hvars]
    have h1 : ∃ E, expandedDims vars front dim = .ok E := by
      unfold expandedDims
      cases h1 : vars.find? (fun x => Sizes.contains x.dims dim) with
      | none =>
        have hnf : dim ∉ labels front.dims := fun hc => by
          have := List.find?_eq_none.1 h1 front hf
          exact this (contains_iff.2 hc)
        refine ⟨(dim, 1) :: front.dims, ?_⟩
        unfold Dims.add insertLeft
        simp only [contains_false.2 hnf]
        rw [if_neg hdim, if_neg (by decide)]
        simp
      | some x =>
        have hc := List.find?_some h1
        exact resize_exists (contains_iff.1 hc) (by decide)
    obtain ⟨E, h1⟩ := h1
    obtain ⟨e1, e2, e3, w, hw, e4⟩ := expandedDims_ok hf hv h1
    have hOE : SameOther dim O E := fun p hp => (ho w hw p hp).symm.trans (e4 p hp)
    simp only [h1]
    obtain ⟨tmp, h2⟩ := mapM_exists (expand E dim) vars (fun x hx => by
      unfold expand
      by_cases hc : Sizes.contains x.dims dim
      · rw [if_pos hc]; exact ⟨x, rfl⟩
      · rw [if_neg hc]
        unfold CVar.broadcast
        have : Sizes.includes E x.dims = true := by
          rw [includes_iff e1.1 (hv x hx).wf.1]
          intro p hp
          have hpd : p.1 ≠ dim := fun hpd => hc (contains_iff.2 (by rw [← hpd]; exact List.mem_map_of_mem hp))
          exact (hOE p hpd).1 ((ho x hx p hpd).1 hp)
        rw [if_neg (by simp [this])]
        exact ⟨_, rfl⟩)
    simp only [h2]
    obtain ⟨t1, t2⟩ := mapM_get _ _ _ h2
    have t3 : ∀ y ∈ tmp, ∃ x ∈ vars, expand E dim x = .ok y := by
      intro y hy
      obtain ⟨i, hi, hiy⟩ := List.getElem_of_mem hy
      obtain ⟨b, hb1, hb2⟩ := t2 i vars[i] (List.getElem?_eq_getElem (by omega))
      rw [List.getElem?_eq_getElem hi, Option.some.injEq, hiy] at hb1
      subst hb1
      exact ⟨_, List.getElem_mem _, hb2⟩
    have t4 : ∀ y ∈ tmp, y.arr.Ok ∧ dim ∈ labels y.dims ∧ (∀ p ∈ y.dims, p.1 ≠ dim → p ∈ E) ∧ y.unit = u ∧ y.kind = k := by
      intro y hy
      obtain ⟨x, hx, hxy⟩ := t3 y hy
      obtain ⟨f1, f2, f3, f4, f5, f6, f7, f8, f9⟩ := expand_ok e1 e2 e3 (hv x hx) hxy
      refine ⟨f1, ?_, ?_, by rw [f2]; exact (hu x hx).1, by rw [f3]; exact (hu x hx).2⟩
      · by_cases hd : dim ∈ labels x.dims
        · rw [f8 hd]; exact hd
        · rw [f9 hd]; exact mem_labels e3
      · intro p hp hpd
        rcases f7 p hp with h | h
        · exact (hOE p hpd).1 ((ho x hx p hpd).1 h)
        · exact h
    obtain ⟨size, h3⟩ := totalSize_exists (dim := dim) (l := tmp) (fun y hy => (t4 y hy).2.1)
    simp only [h3]
    have hsize := totalSize_ok (fun y hy => (t4 y hy).1.wf) h3
    have hsize0 : 0 ≤ size := by
      rw [hsize]
      refine sum_nonneg_list ?_
      intro z hz
      obtain ⟨y, hy, rfl⟩ := List.mem_map.1 hz
      exact extentOf_nonneg (t4 y hy).1.wf dim
    obtain ⟨D, h4⟩ := resize_exists (mem_labels e3) hsize0
    simp only [h4]
    obtain ⟨d1, d2, d3⟩ := resize_mem e1.1 h4
    obtain ⟨r, hr⟩ := copy_loop_exists (resize_WF h4 e1) d1 tmp ((⟨⟨D, fun _ => junk⟩, front.unit, front.kind⟩ : CVar V), (0 : Int))
      (fun y hy => by
        obtain ⟨y1, y2, y3, y4, y5⟩ := t4 y hy
        refine ⟨y1.wf, y2, fun p hp hpd => (d3 p hpd).2 (y3 p hp hpd), ?_, ?_⟩
        · rw [y4]; exact (hu front hf).1.symm
        · rw [y5]; exact (hu front hf).2.symm) rfl (by simp) (by simp only [← hsize]; omega)
    simp only [hr]
    exact ⟨_, rfl⟩

end Scipp.Concat
