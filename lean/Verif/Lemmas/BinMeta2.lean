import Verif.Lemmas.BinMeta
/-
When `bin` succeeds, for C77.
-/
namespace Scipp.BinMeta
open Sizes Props

theorem addInner_exists {s : Dims} {d : Dim} {n : Int} (h1 : d ≠ Dim.invalid) (h2 : 0 ≤ n) (h3 : d ∉ labels s) : Dims.addInner s d n = .ok (s ++ [(d, n)]) :=
  (C01_add_iff _ _ _ _).2.2 ⟨h1, h2, h3, rfl⟩

theorem one_dim_at {c : Entry} (h : c.dims.length = 1) : at? c.dims (dimOf c) = .ok (lenOf c) ∧ c.dims = [(dimOf c, lenOf c)] := by
  obtain ⟨p, hp⟩ := List.length_eq_one_iff.1 h
  unfold lenOf dimOf Dims.inner
  rw [hp]
  simp [at?]

/-- A loop that adds dimensions, if it can. -/
theorem loop_exists {α : Type} {f : Builder → α → Except Err Builder} (sel : α → Bool) (dim : α → Dim) :
    ∀ (l : List α) (b : Builder),
    (∀ b x, x ∈ l → if sel x then (dim x ∉ labels b.dims → ∃ b', f b x = .ok b' ∧ labels b'.dims = labels b.dims ++ [dim x]) else f b x = .ok b) →
    (labels b.dims ++ (l.filter sel).map dim).Nodup →
    ∃ b', l.foldlM f b = .ok b' ∧ labels b'.dims = labels b.dims ++ (l.filter sel).map dim
  | [], b, _, _ => ⟨b, rfl, by simp⟩
  | x :: l, b, hf, hn => by
    rw [List.foldlM_cons]
    have hx := hf b x (by simp)
    by_cases hs : sel x = true
    · rw [if_pos hs] at hx
      rw [List.filter_cons_of_pos hs, List.map_cons] at hn
      have hnot : dim x ∉ labels b.dims := fun hc => (List.nodup_append.1 hn).2.2 _ hc _ (by simp) rfl
      obtain ⟨b1, h1, h2⟩ := hx hnot
      obtain ⟨b', h3, h4⟩ := loop_exists sel dim l b1 (fun b y hy => hf b y (by simp [hy])) (by rw [h2]; simpa using hn)
      refine ⟨b', by rw [h1]; exact h3, ?_⟩
      rw [h4, h2, List.filter_cons_of_pos hs]
      simp
    · rw [if_neg hs] at hx
      rw [List.filter_cons_of_neg hs] at hn
      obtain ⟨b', h3, h4⟩ := loop_exists sel dim l b (fun b y hy => hf b y (by simp [hy])) hn
      exact ⟨b', by rw [hx]; exact h3, by rw [h4, List.filter_cons_of_neg hs]⟩

theorem erase_exists {b : Builder} {d : Dim} (h : d ≠ Dim.invalid) (hd : d ∉ labels b.dims) :
    ∃ b', b.erase d = .ok b' ∧ labels b'.dims = labels b.dims ++ [d] := by
  unfold Builder.erase
  rw [addInner_exists h (by decide) hd]
  exact ⟨_, rfl, by simp [labels]⟩

theorem group_exists {b : Builder} {c : Entry} (h1 : c.dims.length = 1) (h : dimOf c ≠ Dim.invalid) (h0 : 0 ≤ lenOf c) (hd : dimOf c ∉ labels b.dims) :
    ∃ b', b.group c = .ok b' ∧ labels b'.dims = labels b.dims ++ [dimOf c] := by
  unfold Builder.group
  rw [(one_dim_at h1).1]
  simp only [addInner_exists h h0 hd]
  exact ⟨_, rfl, by simp [labels]⟩

theorem bin_exists {b : Builder} {c : Entry} (h1 : c.dims.length = 1) (h : dimOf c ≠ Dim.invalid) (h0 : 1 ≤ lenOf c) (hd : dimOf c ∉ labels b.dims) :
    ∃ b', b.bin c = .ok b' ∧ labels b'.dims = labels b.dims ++ [dimOf c] := by
  unfold Builder.bin
  rw [(one_dim_at h1).1]
  simp only [addInner_exists h (show 0 ≤ lenOf c - 1 by omega) hd]
  exact ⟨_, rfl, by simp [labels]⟩

theorem existing_exists {b : Builder} {d : Dim} {n : Int} (h : d ≠ Dim.invalid) (h0 : 0 ≤ n) (hd : d ∉ labels b.dims) :
    ∃ b', b.existing d n = .ok b' ∧ labels b'.dims = labels b.dims ++ [d] := by
  unfold Builder.existing
  rw [addInner_exists h h0 hd]
  exact ⟨_, rfl, by simp [labels]⟩

/-- Edges and groups that can be used: of one dimension each, all different and none of them erased. -/
structure Usable (edges groups : List Entry) (erase : List Dim) : Prop where
  key : ∀ c, c ∈ edges ∨ c ∈ groups → c.dims.length = 1 ∧ dimOf c ≠ Dim.invalid ∧ 0 ≤ lenOf c
  bins : ∀ c ∈ edges, 1 ≤ lenOf c
  distinct : ((edges ++ groups).map dimOf ++ erase).Nodup
  valid : Dim.invalid ∉ erase

theorem actionsLoop_exists {coords : List (Dim × Entry)} {edges groups : List Entry} {erase : List Dim} (hU : Usable edges groups erase) :
    ∀ (l : Dims) (rebin : Bool) (b : Builder), WF l → Dim.invalid ∉ labels l →
      (∀ d e, (d, e) ∈ coords → d ∈ labels l → e.dims.length = 1) → (∀ d ∈ labels l, d ∈ labels b.dims → d ∈ erase) →
      ∃ b', actionsLoop coords edges groups l rebin b = .ok b' ∧ ∀ d ∈ labels b'.dims, d ∈ labels b.dims ∨ d ∈ labels l
  | [], rebin, b, _, _, _, _ => ⟨b, rfl, fun d h => .inl h⟩
  | (d, n) :: l, rebin, b, hw, hi, hc, hb => by
    have hwl : WF l := sublist_WF (List.sublist_cons_self _ _) hw
    have hdl : d ∉ labels l := by
      have := hw.1
      rw [labels_cons, List.nodup_cons] at this
      exact this.1
    rw [labels_cons, List.mem_cons, not_or] at hi
    have hd : d ≠ Dim.invalid := fun h => hi.1 h.symm
    have hn : 0 ≤ n := hw.2 (d, n) (by simp)
    have hcl : ∀ d e, (d, e) ∈ coords → d ∈ labels l → e.dims.length = 1 := fun d e h1 h2 => hc d e h1 (by simp [labels_cons, h2])
    have hkey : ∀ c, c ∈ edges ∨ c ∈ groups → dimOf c = d → d ∉ labels b.dims := by
      intro c hc' he hin
      have h1 := hb d (by simp [labels_cons]) hin
      have h2 : d ∈ (edges ++ groups).map dimOf := List.mem_map.2 ⟨c, List.mem_append.2 hc', he⟩
      exact (List.nodup_append.1 hU.distinct).2.2 _ h2 _ h1 rfl
    have next : ∀ b1 : Builder, labels b1.dims = labels b.dims ++ [d] → ∀ e ∈ labels l, e ∈ labels b1.dims → e ∈ erase := by
      intro b1 h1 e he hin
      rw [h1, List.mem_append, List.mem_singleton] at hin
      rcases hin with h | h
      · exact hb e (by simp [labels_cons, he]) h
      · subst h; exact absurd he hdl
    have fin : ∀ {b1 b' : Builder}, labels b1.dims = labels b.dims ++ [d] → (∀ e ∈ labels b'.dims, e ∈ labels b1.dims ∨ e ∈ labels l) →
        ∀ e ∈ labels b'.dims, e ∈ labels b.dims ∨ e ∈ labels ((d, n) :: l) := by
      intro b1 b' h1 h2 e he
      rw [labels_cons]
      rcases h2 e he with h | h
      · rw [h1, List.mem_append, List.mem_singleton] at h
        rcases h with h | h
        · exact .inl h
        · exact .inr (by simp [h])
      · exact .inr (by simp [h])
    unfold actionsLoop
    cases hg : keyOf groups d with
    | some g =>
      obtain ⟨g1, g2⟩ := keyOf_some hg
      obtain ⟨u1, u2, u3⟩ := hU.key g (.inr g1)
      obtain ⟨b1, h1, h2⟩ := group_exists u1 u2 u3 (g2 ▸ hkey g (.inr g1) g2)
      rw [g2] at h2
      obtain ⟨b', h3, h4⟩ := actionsLoop_exists hU l true b1 hwl hi.2 hcl (next b1 h2)
      exact ⟨b', by simp only [h1, h3], fin h2 h4⟩
    | none =>
      cases he : keyOf edges d with
      | some g =>
        obtain ⟨g1, g2⟩ := keyOf_some he
        obtain ⟨u1, u2, u3⟩ := hU.key g (.inl g1)
        obtain ⟨b1, h1, h2⟩ := bin_exists u1 u2 (hU.bins g g1) (g2 ▸ hkey g (.inl g1) g2)
        rw [g2] at h2
        obtain ⟨b', h3, h4⟩ := actionsLoop_exists hU l true b1 hwl hi.2 hcl (next b1 h2)
        exact ⟨b', by simp only [h1, h3], fin h2 h4⟩
      | none =>
        simp only
        by_cases hr : (rebin && !contains b.dims d) = true
        · rw [if_pos hr]
          have hnin : d ∉ labels b.dims := by
            simp only [Bool.and_eq_true, Bool.not_eq_true'] at hr
            exact contains_false.1 hr.2
          have hone : (lookupEntry coords d).any (fun c => c.dims.length != 1) = false := by
            cases hl : lookupEntry coords d with
            | none => rfl
            | some e => simp [hc d e (lookup_mem hl) (by simp [labels_cons])]
          rw [if_neg (by simp [hone])]
          obtain ⟨b1, h1, h2⟩ := existing_exists hd hn hnin
          obtain ⟨b', h3, h4⟩ := actionsLoop_exists hU l rebin b1 hwl hi.2 hcl (next b1 h2)
          exact ⟨b', by simp only [h1, h3], fin h2 h4⟩
        · rw [if_neg hr]
          obtain ⟨b', h3, h4⟩ := actionsLoop_exists hU l rebin b hwl hi.2 hcl (fun e h => hb e (by simp [labels_cons, h]))
          refine ⟨b', h3, fun e h => ?_⟩
          rcases h4 e h with h | h
          · exact .inl h
          · exact .inr (by simp [labels_cons, h])

theorem getDims_exists {cs : List Entry} (hv : ∀ c ∈ cs, dimOf c ≠ Dim.invalid) (hn : (cs.map dimOf).Nodup) : ∃ s, getDims cs = .ok s := by
  unfold getDims
  suffices H : ∀ (l : List Entry) (acc : Dims), (∀ c ∈ l, dimOf c ≠ Dim.invalid) → (labels acc ++ l.map dimOf).Nodup →
      ∃ s, l.foldlM (fun s c => Dims.addInner s (Dims.inner c.dims) 1) acc = .ok s from H cs [] hv (by simpa [labels] using hn)
  intro l
  induction l with
  | nil => intro acc _ _; exact ⟨acc, rfl⟩
  | cons c l ih =>
    intro acc hv hn
    rw [List.foldlM_cons]
    have hnot : dimOf c ∉ labels acc := fun hc => (List.nodup_append.1 hn).2.2 _ hc _ (by simp) rfl
    have := addInner_exists (n := 1) (hv c (by simp)) (by decide) hnot
    rw [this]
    exact ih _ (fun c h => hv c (by simp [h])) (by rw [labels_append]; simpa [labels] using hn)

theorem axisActions_exists {data : Dims} {coords : List (Dim × Entry)} {edges groups : List Entry} {erase : List Dim} (hU : Usable edges groups erase)
    (hw : WF data) (hi : Dim.invalid ∉ labels data) (hc : ∀ d e, (d, e) ∈ coords → d ∈ labels data → e.dims.length = 1) :
    ∃ b, axisActions data coords edges groups erase = .ok b := by
  have hnd := List.nodup_append.1 hU.distinct
  rw [List.map_append] at hnd
  have hkeys := List.nodup_append.1 hnd.1
  obtain ⟨b0, h0, l0⟩ := loop_exists (f := Builder.erase) (fun _ => true) id erase ⟨[], []⟩
    (fun b x hx => by
      rw [if_pos rfl]
      exact fun h => erase_exists (fun he => hU.valid (he ▸ hx)) h) (by simpa [labels] using hnd.2.1)
  simp only [List.filter_true, labels, List.map_nil, List.nil_append, List.map_id] at l0
  obtain ⟨se, he⟩ := getDims_exists (cs := edges) (fun c h => (hU.key c (.inl h)).2.1) hkeys.1
  obtain ⟨sg, hg⟩ := getDims_exists (cs := groups) (fun c h => (hU.key c (.inr h)).2.1) hkeys.2.1
  obtain ⟨b1, h1, l1⟩ := actionsLoop_exists hU data false b0 hw hi hc (fun d _ h => by rw [← l0]; exact h)
  have hgood1 : (labels b1.dims).Nodup := by
    have e0 := loop_adds (f := Builder.erase) (fun _ => true) (fun d => (d, 1)) (fun _ => []) (P := fun _ => True)
      (fun b b' x _ hx => by simpa using erase_adds hx) erase ⟨[], []⟩ b0 (by simp) h0 ⟨⟨by simp [labels], by simp⟩, by simp [labels]⟩
    exact (actionsLoop_adds (fun c h => by rw [(one_dim_at (hU.key c (.inl h)).1).2]; simp [labels])
      (fun c h => by rw [(one_dim_at (hU.key c (.inr h)).1).2]; simp [labels]) (erase := erase) data false b0 b1 hw.1
      (fun d _ => by change d ∈ b0.dims.map Prod.fst ↔ _; rw [l0]) e0.1 h1).1.1.1
  have hnew : ∀ c, c ∈ edges ∨ c ∈ groups → contains data (dimOf c) = false → dimOf c ∉ labels b1.dims := by
    intro c hc' hn hin
    rcases l1 _ hin with h | h
    · have h2 : dimOf c ∈ edges.map dimOf ++ groups.map dimOf := by
        rw [← List.map_append]
        exact List.mem_map.2 ⟨c, List.mem_append.2 hc', rfl⟩
      have h' : dimOf c ∈ erase := by rw [← l0]; exact h
      exact hnd.2.2 _ h2 _ h' rfl
    · exact contains_false.1 hn h
  have hsel : ∀ {c : Entry} {l : List Entry}, c ∈ l.filter (fun c => !contains data (dimOf c)) → c ∈ l ∧ contains data (dimOf c) = false := by
    intro c l h
    obtain ⟨h1, h2⟩ := List.mem_filter.1 h
    exact ⟨h1, by simpa using h2⟩
  obtain ⟨b2, h2, l2⟩ := loop_exists (f := newLoop data Builder.group) (fun c => !contains data (dimOf c)) dimOf groups b1
    (fun b x hx => by
      unfold newLoop
      by_cases hcx : contains data (dimOf x) = true
      · rw [if_neg (by simp [hcx]), if_pos hcx]
      · rw [if_pos (by simpa using hcx), if_neg hcx]
        obtain ⟨u1, u2, u3⟩ := hU.key x (.inr hx)
        exact fun h => group_exists u1 u2 u3 h)
    (List.nodup_append.2 ⟨hgood1, hkeys.2.1.sublist (List.filter_sublist.map _), fun x hx y hy hxy => by
      obtain ⟨c, hc', rfl⟩ := List.mem_map.1 hy
      obtain ⟨m1, m2⟩ := hsel hc'
      exact hnew c (.inr m1) m2 (hxy ▸ hx)⟩)
  obtain ⟨b3, h3, l3⟩ := loop_exists (f := newLoop data Builder.bin) (fun c => !contains data (dimOf c)) dimOf edges b2
    (fun b x hx => by
      unfold newLoop
      by_cases hcx : contains data (dimOf x) = true
      · rw [if_neg (by simp [hcx]), if_pos hcx]
      · rw [if_pos (by simpa using hcx), if_neg hcx]
        obtain ⟨u1, u2, u3⟩ := hU.key x (.inl hx)
        exact fun h => bin_exists u1 u2 (hU.bins x hx) h)
    (List.nodup_append.2 ⟨by
        rw [l2]
        exact List.nodup_append.2 ⟨hgood1, hkeys.2.1.sublist (List.filter_sublist.map _), fun x hx y hy hxy => by
          obtain ⟨c, hc', rfl⟩ := List.mem_map.1 hy
          obtain ⟨m1, m2⟩ := hsel hc'
          exact hnew c (.inr m1) m2 (hxy ▸ hx)⟩, hkeys.1.sublist (List.filter_sublist.map _), fun x hx y hy hxy => by
      obtain ⟨c, hc', rfl⟩ := List.mem_map.1 hy
      obtain ⟨m1, m2⟩ := hsel hc'
      rw [l2, List.mem_append] at hx
      rcases hx with hx | hx
      · exact hnew c (.inl m1) m2 (hxy ▸ hx)
      · obtain ⟨c', hc'', he'⟩ := List.mem_map.1 hx
        exact hkeys.2.2 (dimOf c) (List.mem_map.2 ⟨c, m1, rfl⟩) x (List.mem_map.2 ⟨c', (hsel hc'').1, he'⟩) hxy.symm⟩)
  exact ⟨b3, by unfold axisActions; simp only [h0, he, hg, h1, h2, h3]⟩

theorem merge_disjoint_ok {a b : Dims} (ha : Good a) (hb : Good b) (hd : ∀ d ∈ labels a, d ∉ labels b) : Dims.merge a b = .ok (a ++ b) := by
  have h := Dims.merge_eq a b ha.1 hb.1 ha.2 hb.2 (fun d x y hx hy => absurd (mem_labels hy) (hd d (mem_labels hx)))
  rw [h, merge_disjoint ha hb hd h]

/-- An action with a key is for the dimension of the key. -/
theorem action_dim {data : Dims} {coords : List (Dim × Entry)} {edges groups : List Entry} {erase : List Dim} {b : Builder} (hdata : (labels data).Nodup)
    (hE : ∀ c ∈ edges, (labels c.dims).Nodup) (hG : ∀ c ∈ groups, (labels c.dims).Nodup)
    (h : axisActions data coords edges groups erase = .ok b) {a : Kind × Dim × Option Entry} (ha : a ∈ b.actions) :
    (a.1 = .existing ∧ a.2.2 = none) ∨ ∃ c, (c ∈ edges ∨ c ∈ groups) ∧ a.1 ≠ .existing ∧ a.2.2 = some c ∧ a.2.1 = dimOf c := by
  obtain ⟨-, -, hact, -⟩ := axisActions_ok hdata hE hG h
  rw [hact, List.mem_append, List.mem_append] at ha
  rcases ha with (ha | ha) | ha
  · obtain ⟨p, -, rfl⟩ := List.mem_map.1 ha
    unfold actOf
    cases hg : keyOf groups p.1 with
    | some g =>
      obtain ⟨g1, g2⟩ := keyOf_some hg
      exact .inr ⟨g, .inr g1, by simp, rfl, g2.symm⟩
    | none =>
      cases he : keyOf edges p.1 with
      | some e =>
        obtain ⟨g1, g2⟩ := keyOf_some he
        exact .inr ⟨e, .inl g1, by simp, rfl, g2.symm⟩
      | none => exact .inl ⟨rfl, rfl⟩
  · obtain ⟨c, hc, rfl⟩ := List.mem_map.1 ha
    exact .inr ⟨c, .inr (List.mem_filter.1 hc).1, by simp, rfl, rfl⟩
  · obtain ⟨c, hc, rfl⟩ := List.mem_map.1 ha
    exact .inr ⟨c, .inl (List.mem_filter.1 hc).1, by simp, rfl, rfl⟩

/-- Every dimension of a key has an action with a key. -/
theorem key_action {data : Dims} {coords : List (Dim × Entry)} {edges groups : List Entry} {erase : List Dim} {b : Builder} (hdata : (labels data).Nodup)
    (hE : ∀ c ∈ edges, (labels c.dims).Nodup) (hG : ∀ c ∈ groups, (labels c.dims).Nodup)
    (h : axisActions data coords edges groups erase = .ok b) {c : Entry} (hc : c ∈ edges ∨ c ∈ groups) :
    ∃ a ∈ b.actions, a.1 ≠ .existing ∧ a.2.1 = dimOf c := by
  have hmem := (mem_keys_dims hdata hE hG h (dimOf c)).2 (by
    rcases hc with hc | hc
    · exact .inl ⟨c, hc, rfl⟩
    · exact .inr ⟨c, hc, rfl⟩)
  obtain ⟨c', hc', hd⟩ := List.mem_map.1 hmem
  have : ∃ k, c' ∈ b.keys k := by
    rcases List.mem_append.1 hc' with h | h
    · exact ⟨_, h⟩
    · exact ⟨_, h⟩
  obtain ⟨k, hk⟩ := this
  obtain ⟨a, ha, he⟩ := List.mem_filterMap.1 hk
  split at he
  · rcases action_dim hdata hE hG h ha with ⟨-, h2⟩ | ⟨c'', -, h1, h2, h3⟩
    · rw [h2] at he; cases he
    · rw [h2] at he
      injection he with he
      exact ⟨a, ha, h1, by rw [h3, he, hd]⟩
  · cases he

/-- What a loop that inserts leaves in a dictionary. -/
theorem mem_insert_fold {α β : Type} (q : List (Dim × α) → β → Bool) (key : β → Dim) (val : β → α) : ∀ (l : List β) (out : List (Dim × α)) (p : Dim × α),
    p ∈ l.foldl (fun o y => if q o y then insertEntry o (key y) (val y) else o) out → p ∈ out ∨ ∃ y ∈ l, (∃ o, q o y = true) ∧ p = (key y, val y)
  | [], out, p, h => .inl h
  | y :: l, out, p, h => by
    rw [List.foldl_cons] at h
    rcases mem_insert_fold q key val l _ p h with h | ⟨z, hz, h⟩
    · split at h
      · rename_i hq
        rcases mem_insert h with h | h
        · exact .inl h
        · exact .inr ⟨y, by simp, ⟨out, hq⟩, h⟩
      · exact .inl h
    · exact .inr ⟨z, by simp [hz], h⟩

theorem mem_erase {α : Type} {l : List (Dim × α)} {k : Dim} {p : Dim × α} (h : p ∈ eraseEntry l k) : p ∈ l := by
  induction l with
  | nil => exact h
  | cons q l ih =>
    unfold eraseEntry at h
    split at h
    · exact List.mem_cons_of_mem _ h
    · rcases List.mem_cons.1 h with rfl | h
      · simp
      · exact List.mem_cons_of_mem _ (ih h)

theorem mem_dropGrouped {l : List (Dim × Entry)} {p : Dim × Entry} : ∀ {groups : List Entry}, p ∈ dropGrouped l groups → p ∈ l := by
  intro groups
  unfold dropGrouped
  induction groups generalizing l with
  | nil => exact id
  | cons g gs ih => exact fun h => mem_erase (ih h)

theorem mem_insertCoords {dims : List Dim} {bufDim : Dim} {coords out : List (Dim × Entry)} {p : Dim × Entry} (h : p ∈ insertCoords dims bufDim coords out) :
    p ∈ out ∨ p ∈ coords ∧ rebinned dims bufDim p.2 = false := by
  rcases mem_insert_fold (α := Entry) (β := Dim × Entry) (fun o p => !rebinned dims bufDim p.2 && (lookupEntry o p.1).isNone) (fun p => p.1) (fun p => p.2) coords out p h with h | ⟨y, hy, ⟨o, ho⟩, rfl⟩
  · exact .inl h
  · simp only [Bool.and_eq_true, Bool.not_eq_true'] at ho
    exact .inr ⟨hy, ho.1⟩

theorem insertCoords_nodup {dims : List Dim} {bufDim : Dim} {coords out : List (Dim × Entry)} (h : (out.map Prod.fst).Nodup) : ((insertCoords dims bufDim coords out).map Prod.fst).Nodup :=
  insert_fold_nodup (α := Entry) (β := Dim × Entry) (fun o p => !rebinned dims bufDim p.2 && (lookupEntry o p.1).isNone) (fun p => p.1) (fun p => p.2) coords out h

theorem mem_insertMasks {dims : List Dim} {bufDim : Dim} {masks out : List (Dim × Entry)} {p : Dim × Entry} (h : p ∈ insertMasks dims bufDim masks out) :
    p ∈ out ∨ p ∈ masks ∧ rebinned dims bufDim p.2 = false := by
  rcases mem_insert_fold (α := Entry) (β := Dim × Entry) (fun _ p => !rebinned dims bufDim p.2) (fun p => p.1) (fun p => p.2) masks out p h with h | ⟨y, hy, ⟨o, ho⟩, rfl⟩
  · exact .inl h
  · simp only [Bool.and_eq_true, Bool.not_eq_true'] at ho
    exact .inr ⟨hy, ho⟩

theorem insertMasks_nodup {dims : List Dim} {bufDim : Dim} {masks out : List (Dim × Entry)} (h : (out.map Prod.fst).Nodup) : ((insertMasks dims bufDim masks out).map Prod.fst).Nodup :=
  insert_fold_nodup (α := Entry) (β := Dim × Entry) (fun _ p => !rebinned dims bufDim p.2) (fun p => p.1) (fun p => p.2) masks out h

theorem mem_insertAttrs {dims : List Dim} {bufDim : Dim} {outCoords attrs out : List (Dim × Entry)} {p : Dim × Entry} (h : p ∈ insertAttrs dims bufDim outCoords attrs out) :
    p ∈ out ∨ p ∈ attrs ∧ rebinned dims bufDim p.2 = false := by
  rcases mem_insert_fold (α := Entry) (β := Dim × Entry) (fun _ p => !rebinned dims bufDim p.2 && (lookupEntry outCoords p.1).isNone) (fun p => p.1) (fun p => p.2) attrs out p h with h | ⟨y, hy, ⟨o, ho⟩, rfl⟩
  · exact .inl h
  · simp only [Bool.and_eq_true, Bool.not_eq_true'] at ho
    exact .inr ⟨hy, ho.1⟩

theorem insertAttrs_nodup {dims : List Dim} {bufDim : Dim} {outCoords attrs out : List (Dim × Entry)} (h : (out.map Prod.fst).Nodup) : ((insertAttrs dims bufDim outCoords attrs out).map Prod.fst).Nodup :=
  insert_fold_nodup (α := Entry) (β := Dim × Entry) (fun _ p => !rebinned dims bufDim p.2 && (lookupEntry outCoords p.1).isNone) (fun p => p.1) (fun p => p.2) attrs out h

theorem mem_insertKeys {keys : List Entry} {out : List (Dim × Entry)} {p : Dim × Entry} (h : p ∈ insertKeys keys out) :
    p ∈ out ∨ ∃ c ∈ keys, p = (dimOf c, { c with aligned := true }) := by
  have h' : p ∈ keys.foldl (fun o c => if (fun (_ : List (Dim × Entry)) (_ : Entry) => true) o c then
      insertEntry o (dimOf c) { c with aligned := true } else o) out := by
    simpa [insertKeys] using h
  rcases mem_insert_fold _ _ _ _ _ _ h' with h | ⟨c, hc, -, h⟩
  · exact .inl h
  · exact .inr ⟨c, hc, h⟩

theorem insertKeys_nodup {keys : List Entry} {out : List (Dim × Entry)} (h : (out.map Prod.fst).Nodup) : ((insertKeys keys out).map Prod.fst).Nodup := by
  have := insert_fold_nodup (fun (_ : List (Dim × Entry)) (_ : Entry) => true) dimOf (fun c => { c with aligned := true }) keys out h
  simpa [insertKeys] using this

end Scipp.BinMeta
