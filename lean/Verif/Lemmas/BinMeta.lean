import Verif.Spec.BinMeta
import Verif.Props.SizesOps
import Verif.Lemmas.SizedDict
import Mathlib.Data.List.Basic
/-
Lemmas on `bin`, for C77.
-/
namespace Scipp.BinMeta
open Sizes Scipp.Props

theorem at_inner {c : Entry} {n : Int} (hc : (labels c.dims).Nodup) (h : at? c.dims (dimOf c) = .ok n) : n = lenOf c := by
  unfold lenOf dimOf Dims.inner at *
  cases hl : c.dims.getLast? with
  | none =>
    have : c.dims = [] := List.getLast?_eq_none_iff.1 hl
    rw [this] at h
    simp [at?] at h
  | some p =>
    rw [hl] at h
    simp only [Option.map_some, Option.getD_some] at h ⊢
    have := at?_of_mem hc (d := p.1) (x := p.2) (List.mem_of_getLast? hl)
    rw [this] at h
    injection h with h
    exact h.symm

/-- What a step that adds a dimension does. -/
def Adds (b b' : Builder) (p : Dim × Int) (a : List (Kind × Dim × Option Entry)) : Prop :=
  p.1 ≠ Dim.invalid ∧ 0 ≤ p.2 ∧ p.1 ∉ labels b.dims ∧ b'.dims = b.dims ++ [p] ∧ b'.actions = b.actions ++ a

theorem erase_adds {b b' : Builder} {d : Dim} (h : b.erase d = .ok b') : Adds b b' (d, 1) [] := by
  unfold Builder.erase at h
  split at h
  · rename_i dims hd
    injection h with h
    subst h
    obtain ⟨h1, h2, h3, rfl⟩ := (C01_add_iff _ _ _ _).2.1 hd
    exact ⟨h1, h2, h3, rfl, by simp⟩
  · cases h

theorem existing_adds {b b' : Builder} {d : Dim} {n : Int} (h : b.existing d n = .ok b') : Adds b b' (d, n) [(.existing, d, none)] := by
  unfold Builder.existing at h
  split at h
  · rename_i dims hd
    injection h with h
    subst h
    obtain ⟨h1, h2, h3, rfl⟩ := (C01_add_iff _ _ _ _).2.1 hd
    exact ⟨h1, h2, h3, rfl, rfl⟩
  · cases h

theorem group_adds {b b' : Builder} {c : Entry} (hc : (labels c.dims).Nodup) (h : b.group c = .ok b') :
    Adds b b' (dimOf c, lenOf c) [(.group, dimOf c, some c)] := by
  unfold Builder.group at h
  split at h
  · cases h
  rename_i n hn
  split at h
  · rename_i dims hd
    injection h with h
    subst h
    obtain ⟨h1, h2, h3, rfl⟩ := (C01_add_iff _ _ _ _).2.1 hd
    obtain rfl := at_inner hc hn
    exact ⟨h1, h2, h3, rfl, rfl⟩
  · cases h

theorem bin_adds {b b' : Builder} {c : Entry} (hc : (labels c.dims).Nodup) (h : b.bin c = .ok b') :
    Adds b b' (dimOf c, lenOf c - 1) [(.bin, dimOf c, some c)] := by
  unfold Builder.bin at h
  split at h
  · cases h
  rename_i n hn
  split at h
  · rename_i dims hd
    injection h with h
    subst h
    obtain ⟨h1, h2, h3, rfl⟩ := (C01_add_iff _ _ _ _).2.1 hd
    obtain rfl := at_inner hc hn
    exact ⟨h1, h2, h3, rfl, rfl⟩
  · cases h

/-- Well-formed dims without an invalid label. -/
def Good (s : Dims) : Prop := WF s ∧ Dim.invalid ∉ labels s

theorem Adds.good {b b' : Builder} {p : Dim × Int} {a} (h : Adds b b' p a) (hb : Good b.dims) : Good b'.dims := by
  obtain ⟨h1, h2, h3, h4, -⟩ := h
  rw [h4]
  obtain ⟨⟨hn, h0⟩, hi⟩ := hb
  refine ⟨⟨?_, ?_⟩, ?_⟩
  · rw [labels_append, List.nodup_append]
    refine ⟨hn, by simp [labels], fun x hx y hy => ?_⟩
    simp [labels] at hy
    subst hy
    rintro rfl
    exact h3 hx
  · intro q hq
    rcases List.mem_append.1 hq with hq | hq
    · exact h0 q hq
    · simp at hq; subst hq; exact h2
  · rw [labels_append, List.mem_append, not_or]
    exact ⟨hi, by simpa [labels, eq_comm] using h1⟩

/-- A loop of steps that each add a dimension, or nothing. -/
theorem loop_adds {α : Type} {f : Builder → α → Except Err Builder} (sel : α → Bool) (dim : α → Dim × Int) (act : α → List (Kind × Dim × Option Entry)) {P : α → Prop}
    (hf : ∀ b b' x, P x → f b x = .ok b' → if sel x then Adds b b' (dim x) (act x) else b' = b) :
    ∀ (l : List α) (b b' : Builder), (∀ x ∈ l, P x) → l.foldlM f b = .ok b' → Good b.dims →
      Good b'.dims ∧ b'.dims = b.dims ++ (l.filter sel).map dim ∧ b'.actions = b.actions ++ (l.filter sel).flatMap act
  | [], b, b', _, h, hb => by
    simp [List.foldlM, pure, Except.pure] at h
    subst h
    exact ⟨hb, by simp, by simp⟩
  | x :: l, b, b', hP, h, hb => by
    simp only [List.foldlM_cons, bind, Except.bind] at h
    split at h
    · cases h
    rename_i b1 h1
    have := hf b b1 x (hP x (by simp)) h1
    split at this
    · rename_i hs
      obtain ⟨g, h2, h3⟩ := loop_adds sel dim act hf l b1 b' (fun y hy => hP y (by simp [hy])) h (this.good hb)
      obtain ⟨-, -, -, h4, h5⟩ := this
      refine ⟨g, ?_, ?_⟩
      · rw [h2, h4, List.filter_cons_of_pos hs]; simp
      · rw [h3, h5, List.filter_cons_of_pos hs]; simp
    · rename_i hs
      subst this
      obtain ⟨g, h2, h3⟩ := loop_adds sel dim act hf l b1 b' (fun y hy => hP y (by simp [hy])) h hb
      refine ⟨g, ?_, ?_⟩
      · rw [h2, List.filter_cons_of_neg hs]
      · rw [h3, List.filter_cons_of_neg hs]

/-- The dimension is that of a key. -/
def isKey (edges groups : List Entry) (d : Dim) : Bool := (keyOf groups d).isSome || (keyOf edges d).isSome

theorem newLen_eq (edges groups : List Entry) (p : Dim × Int) : newLen edges groups p =
  (p.1, match keyOf groups p.1 with
    | some g => lenOf g
    | none =>
      match keyOf edges p.1 with
      | some e => lenOf e - 1
      | none => p.2) := rfl

/-- The action on a dimension of the data. -/
def actOf (edges groups : List Entry) (d : Dim) : Kind × Dim × Option Entry :=
  match keyOf groups d with
  | some g => (.group, d, some g)
  | none =>
    match keyOf edges d with
    | some e => (.bin, d, some e)
    | none => (.existing, d, none)

theorem keyOf_some {cs : List Entry} {d : Dim} {c : Entry} (h : keyOf cs d = some c) : c ∈ cs ∧ dimOf c = d := by
  unfold keyOf at h
  exact ⟨List.mem_of_find?_eq_some h, by simpa using List.find?_some h⟩

/-- The dimensions of the data from the first one on that has a key. -/
def handled (edges groups : List Entry) (rebin : Bool) (l : Dims) : Dims := if rebin then l else l.dropWhile (fun p => !isKey edges groups p.1)

theorem actionsLoop_adds {coords : List (Dim × Entry)} {edges groups : List Entry} (hE : ∀ c ∈ edges, (labels c.dims).Nodup)
    (hG : ∀ c ∈ groups, (labels c.dims).Nodup) {erase : List Dim} :
    ∀ (l : Dims) (rebin : Bool) (b b' : Builder), (labels l).Nodup → (∀ d ∈ labels l, d ∈ labels b.dims ↔ d ∈ erase) → Good b.dims →
      actionsLoop coords edges groups l rebin b = .ok b' →
      Good b'.dims ∧
      b'.dims = b.dims ++ ((handled edges groups rebin l).filter (fun p => !erase.contains p.1)).map (newLen edges groups) ∧
      b'.actions = b.actions ++ ((handled edges groups rebin l).filter (fun p => !erase.contains p.1)).map (fun p => actOf edges groups p.1) ∧
      ∀ p ∈ l, isKey edges groups p.1 = true → p.1 ∉ erase
  | [], rebin, b, b', _, _, hb, h => by
    unfold actionsLoop at h
    injection h with h
    subst h
    cases rebin <;> simp [handled, hb]
  | (d, n) :: l, rebin, b, b', hn, he, hb, h => by
    rw [labels_cons, List.nodup_cons] at hn
    obtain ⟨hd, hn⟩ := hn
    have he' : ∀ {b1 : Builder} {x : Dim × Int} {a}, x.1 = d → Adds b b1 x a → ∀ k ∈ labels l, k ∈ labels b1.dims ↔ k ∈ erase := by
      intro b1 x a hx ha k hk
      rw [ha.2.2.2.1, labels_append, List.mem_append]
      have : k ≠ d := fun hc => hd (hc ▸ hk)
      simp only [labels, List.map_cons, List.map_nil, List.mem_singleton, hx, this, or_false]
      exact he k (by simp [hk])
    have fin : ∀ {b1 : Builder}, Adds b b1 (newLen edges groups (d, n)) [actOf edges groups d] → handled edges groups rebin ((d, n) :: l) = (d, n) :: l →
        actionsLoop coords edges groups l true b1 = .ok b' →
        Good b'.dims ∧
        b'.dims = b.dims ++ ((handled edges groups rebin ((d, n) :: l)).filter (fun p => !erase.contains p.1)).map (newLen edges groups) ∧
        b'.actions = b.actions ++ ((handled edges groups rebin ((d, n) :: l)).filter (fun p => !erase.contains p.1)).map (fun p => actOf edges groups p.1) ∧
        ∀ p ∈ (d, n) :: l, isKey edges groups p.1 = true → p.1 ∉ erase := by
      intro b1 ha hh h1
      obtain ⟨g, h2, h3, h4⟩ := actionsLoop_adds hE hG l true b1 b' hn (he' rfl ha) (ha.good hb) h1
      have hde : d ∉ erase := fun hc => ha.2.2.1 ((he d (by simp)).2 hc)
      have h2' : handled edges groups true l = l := rfl
      rw [hh]
      refine ⟨g, ?_, ?_, ?_⟩
      · rw [h2, h2', ha.2.2.2.1, List.filter_cons_of_pos (by simpa using hde)]; simp
      · rw [h3, h2', ha.2.2.2.2, List.filter_cons_of_pos (by simpa using hde)]; simp
      · intro p hp hk
        rcases List.mem_cons.1 hp with rfl | hp
        · exact hde
        · exact h4 p hp hk
    unfold actionsLoop at h
    split at h
    · rename_i g hg
      obtain ⟨hgm, hgd⟩ := keyOf_some hg
      split at h
      · rename_i b1 h1
        refine fin ?_ ?_ h
        · have := group_adds (hG g hgm) h1
          simpa [newLen_eq, actOf, hg, hgd] using this
        · cases rebin <;> simp [handled, isKey, hg]
      · cases h
    · rename_i hg
      split at h
      · rename_i g hk
        obtain ⟨hgm, hgd⟩ := keyOf_some hk
        split at h
        · rename_i b1 h1
          refine fin ?_ ?_ h
          · have := bin_adds (hE g hgm) h1
            simpa [newLen_eq, actOf, hg, hk, hgd] using this
          · cases rebin <;> simp [handled, isKey, hk]
        · cases h
      · rename_i hk
        cases rebin with
        | false =>
          simp only [Bool.false_and, Bool.false_eq_true, if_false] at h
          have := actionsLoop_adds hE hG l false b b' hn (fun k hk' => he k (by simp [hk'])) hb h
          have hh : handled edges groups false ((d, n) :: l) = handled edges groups false l := by simp [handled, isKey, hg, hk]
          rw [hh]
          refine ⟨this.1, this.2.1, this.2.2.1, fun p hp hkp => ?_⟩
          rcases List.mem_cons.1 hp with rfl | hp
          · simp [isKey, hg, hk] at hkp
          · exact this.2.2.2 p hp hkp
        | true =>
          split at h
          · rename_i hc
            split at h
            · cases h
            split at h
            · rename_i b1 h1
              refine fin ?_ rfl h
              have := existing_adds h1
              simpa [newLen_eq, actOf, hg, hk] using this
            · cases h
          · rename_i hc
            have hde : d ∈ erase := (he d (by simp)).1 (contains_iff.1 (by simpa using hc))
            have := actionsLoop_adds hE hG l true b b' hn (fun k hk' => he k (by simp [hk'])) hb h
            have hh : (handled edges groups true ((d, n) :: l)).filter (fun p => !erase.contains p.1) = (handled edges groups true l).filter (fun p => !erase.contains p.1) := by
              simp [handled, hde]
            rw [hh]
            refine ⟨this.1, this.2.1, this.2.2.1, fun p hp hkp => ?_⟩
            rcases List.mem_cons.1 hp with rfl | hp
            · simp [isKey, hg, hk] at hkp
            · exact this.2.2.2 p hp hkp

/-- The builder after `axis_actions`. -/
theorem axisActions_ok {data : Dims} {coords : List (Dim × Entry)} {edges groups : List Entry} {erase : List Dim} {b : Builder} (hdata : (labels data).Nodup)
    (hE : ∀ c ∈ edges, (labels c.dims).Nodup) (hG : ∀ c ∈ groups, (labels c.dims).Nodup)
    (h : axisActions data coords edges groups erase = .ok b) :
    Good b.dims ∧
    b.dims = erase.map (fun d => (d, 1)) ++ ((handled edges groups false data).filter (fun p => !erase.contains p.1)).map (newLen edges groups) ++
      (groups.filter (fun c => !contains data (dimOf c))).map (fun c => (dimOf c, lenOf c)) ++
      (edges.filter (fun c => !contains data (dimOf c))).map (fun c => (dimOf c, lenOf c - 1)) ∧
    b.actions = ((handled edges groups false data).filter (fun p => !erase.contains p.1)).map (fun p => actOf edges groups p.1) ++
      (groups.filter (fun c => !contains data (dimOf c))).map (fun c => (.group, dimOf c, some c)) ++
      (edges.filter (fun c => !contains data (dimOf c))).map (fun c => (.bin, dimOf c, some c)) ∧
    (edges.map dimOf).Nodup ∧ (groups.map dimOf).Nodup ∧ ∀ d ∈ labels data, isKey edges groups d = true → d ∉ erase := by
  unfold axisActions at h
  split at h
  · cases h
  rename_i b0 h0
  have e0 := loop_adds (f := Builder.erase) (fun _ => true) (fun d => (d, 1)) (fun _ => []) (P := fun _ => True)
    (fun b b' x _ hx => by simpa using erase_adds hx) erase ⟨[], []⟩ b0 (by simp) h0 ⟨⟨by simp [labels], by simp⟩, by simp [labels]⟩
  simp only [List.filter_true, List.nil_append]  at e0
  split at h
  · cases h
  · cases h
  rename_i de dg hde hdg
  have key : ∀ (cs : List Entry) (acc r : Dims), cs.foldlM (fun s c => Dims.addInner s (dimOf c) 1) acc = .ok r →
      (cs.map dimOf).Nodup ∧ ∀ d ∈ cs.map dimOf, d ∉ labels acc := by
    intro cs
    induction cs with
    | nil => intro acc r _; simp
    | cons c cs ih =>
      intro acc r hr
      simp only [List.foldlM_cons, bind, Except.bind] at hr
      split at hr
      · cases hr
      rename_i s hs
      obtain ⟨-, -, h3, rfl⟩ := (C01_add_iff _ _ _ _).2.1 hs
      obtain ⟨q1, q2⟩ := ih _ _ hr
      refine ⟨?_, ?_⟩
      · rw [List.map_cons, List.nodup_cons]
        refine ⟨fun hc => q2 _ hc (by simp [labels]), q1⟩
      · intro d hd
        rcases List.mem_cons.1 hd with rfl | hd
        · exact h3
        · intro hc
          exact q2 d hd (by rw [labels_append]; exact List.mem_append.2 (.inl hc))
  split at h
  · cases h
  rename_i b1 h1
  have e1 := actionsLoop_adds hE hG (erase := erase) data false b0 b1 hdata (by
    intro d _
    rw [e0.2.1]
    simp [labels]) e0.1 h1
  split at h
  · cases h
  rename_i b2 h2
  have e2 := loop_adds (f := newLoop data Builder.group) (fun c => !contains data (dimOf c)) (fun c => (dimOf c, lenOf c)) (fun c => [(.group, dimOf c, some c)])
    (P := fun c => (labels c.dims).Nodup) (fun b b' x hP hx => by
      unfold newLoop at hx
      cases hc : contains data (dimOf x) <;> rw [hc] at hx <;> simp at hx ⊢
      · exact group_adds hP hx
      · exact hx.symm) groups b1 b2 hG h2 e1.1
  have e3 := loop_adds (f := newLoop data Builder.bin) (fun c => !contains data (dimOf c)) (fun c => (dimOf c, lenOf c - 1)) (fun c => [(.bin, dimOf c, some c)])
    (P := fun c => (labels c.dims).Nodup) (fun b b' x hP hx => by
      unfold newLoop at hx
      cases hc : contains data (dimOf x) <;> rw [hc] at hx <;> simp at hx ⊢
      · exact bin_adds hP hx
      · exact hx.symm) edges b2 b hE h e2.1
  refine ⟨e3.1, ?_, ?_, (key edges [] de hde).1, (key groups [] dg hdg).1, ?_⟩
  · rw [e3.2.1, e2.2.1, e1.2.1, e0.2.1]
  · rw [e3.2.2, e2.2.2, e1.2.2.1, e0.2.2]
    have f0 : ∀ l : List Dim, l.flatMap (fun _ => ([] : List (Kind × Dim × Option Entry))) = [] := by
      intro l; induction l with
      | nil => rfl
      | cons _ _ ih => simp [ih]
    have f1 : ∀ (k : Kind) (l : List Entry), l.flatMap (fun c => [(k, dimOf c, some c)]) = l.map (fun c => (k, dimOf c, some c)) := by
      intro k l; induction l with
      | nil => rfl
      | cons _ _ ih => simp [ih]
    rw [f0, f1, f1]
    simp
  · intro d hd hk
    obtain ⟨p, hp, rfl⟩ := List.mem_map.1 hd
    exact e1.2.2.2 p hp hk

/-- The parts of a call of `bin`. -/
theorem bin_ok {x : Input} {edges groups : List Entry} {erase : List Dim} {out : Output} (h : bin x edges groups erase = .ok out) :
    ∃ b s c m a, axisActions x.dims (x.attrs ++ x.coords) edges groups erase = .ok b ∧ sizesDims x b = .ok s ∧ squeezeDims s erase = .ok out.dims ∧
      SizedDict.ofItems out.dims (insertCoords (erase ++ (b.keys .bin ++ b.keys .group).map dimOf) x.bufDim x.coords
        (insertKeys (b.keys .bin ++ b.keys .group) (extractUnbinned x.bufDim (dropGrouped x.bufCoords groups)))) false = .ok c ∧ out.coords = c.items ∧
      SizedDict.ofItems out.dims (insertMasks (erase ++ (b.keys .bin ++ b.keys .group).map dimOf) x.bufDim x.masks (extractUnbinned x.bufDim x.bufMasks)) false = .ok m ∧
      out.masks = m.items ∧
      SizedDict.ofItems out.dims (insertAttrs (erase ++ (b.keys .bin ++ b.keys .group).map dimOf) x.bufDim
        (insertCoords (erase ++ (b.keys .bin ++ b.keys .group).map dimOf) x.bufDim x.coords
          (insertKeys (b.keys .bin ++ b.keys .group) (extractUnbinned x.bufDim (dropGrouped x.bufCoords groups))))
        x.attrs (extractUnbinned x.bufDim x.bufAttrs)) false = .ok a ∧ out.attrs = a.items ∧
      out.hidden = (if x.binned then x.masks.filter (fun p => (Sizes.labels p.2.dims).any (Sizes.contains b.dims ·)) else []) := by
  unfold bin at h
  split at h
  · cases h
  split at h
  · cases h
  rename_i b hb
  split at h
  swap
  · cases h
  unfold addMetadata at h
  split at h
  · cases h
  rename_i s hs
  split at h
  · cases h
  rename_i o ho
  simp only [] at h
  split at h
  · rename_i c m a hc hm ha
    injection h with h
    subst h
    exact ⟨b, s, c, m, a, hb, hs, ho, hc, rfl, hm, rfl, ha, rfl, rfl⟩
  · cases h
  · cases h
  · cases h

/-- Merging dimensions that are different. -/
theorem merge_disjoint {a b s : Dims} (ha : Good a) (hb : Good b) (hd : ∀ d ∈ labels a, d ∉ labels b) (h : Dims.merge a b = .ok s) : s = a ++ b := by
  rw [Dims.merge_eq a b ha.1 hb.1 ha.2 hb.2 (fun d x y hx hy => absurd (mem_labels hy) (hd d (mem_labels hx)))] at h
  injection h with h
  have hnb : Dims.nb a b = b := by
    unfold Dims.nb
    refine List.filter_eq_self.2 fun p hp => ?_
    have : p.1 ∉ labels a := fun hc => hd p.1 hc (mem_labels (x := p.2) hp)
    simpa [contains_false] using this
  have : ∀ as : Dims, (∀ p ∈ as, p ∈ a) → Dims.mergePure a b as b = as ++ b := by
    intro as
    induction as with
    | nil => intro _; simp [Dims.mergePure, hnb]
    | cons p as ih =>
      intro hp
      have : contains b p.1 = false := contains_false.2 (hd p.1 (mem_labels (x := p.2) (hp p (by simp))))
      simp only [Dims.mergePure, this, Bool.false_eq_true, if_false]
      rw [ih (fun q hq => hp q (by simp [hq]))]
      rfl
  rw [← h, this a (fun _ h => h)]

theorem keyOf_mem {cs : List Entry} (hn : (cs.map dimOf).Nodup) {c : Entry} (h : c ∈ cs) : keyOf cs (dimOf c) = some c := by
  induction cs with
  | nil => simp at h
  | cons a cs ih =>
    rw [List.map_cons, List.nodup_cons] at hn
    unfold keyOf
    rcases List.mem_cons.1 h with rfl | h
    · simp
    · have : dimOf a ≠ dimOf c := fun hc => hn.1 (hc ▸ List.mem_map_of_mem h)
      rw [List.find?_cons_of_neg (by simpa using this)]
      exact ih hn.2 h

theorem keyOf_none {cs : List Entry} {d : Dim} : keyOf cs d = none ↔ ∀ c ∈ cs, dimOf c ≠ d := by
  unfold keyOf
  simp [List.find?_eq_none]

theorem mem_handled {edges groups : List Entry} {data : Dims} {p : Dim × Int} (hp : p ∈ data) (hk : isKey edges groups p.1 = true) :
    p ∈ handled edges groups false data := by
  unfold handled
  simp only [Bool.false_eq_true, if_false]
  have := List.takeWhile_append_dropWhile (p := fun q : Dim × Int => !isKey edges groups q.1) (l := data)
  rw [← this] at hp
  rcases List.mem_append.1 hp with hp | hp
  · exfalso
    have : ∀ (l : Dims), p ∈ l.takeWhile (fun q : Dim × Int => !isKey edges groups q.1) → False := by
      intro l
      induction l with
      | nil => simp
      | cons q l ih =>
        intro h
        rw [List.takeWhile_cons] at h
        split at h
        · rename_i hq
          rcases List.mem_cons.1 h with rfl | h
          · simp [hk] at hq
          · exact ih h
        · simp at h
    exact this _ hp
  · exact hp

theorem handled_sub {edges groups : List Entry} {data : Dims} {p : Dim × Int} (hp : p ∈ handled edges groups false data) : p ∈ data := by
  unfold handled at hp
  simp only [Bool.false_eq_true, if_false] at hp
  exact (List.dropWhile_sublist _).subset hp

theorem mem_keys_group {data : Dims} {coords : List (Dim × Entry)} {edges groups : List Entry} {erase : List Dim} {b : Builder} (hdata : (labels data).Nodup)
    (hE : ∀ c ∈ edges, (labels c.dims).Nodup) (hG : ∀ c ∈ groups, (labels c.dims).Nodup)
    (h : axisActions data coords edges groups erase = .ok b) (c : Entry) : c ∈ b.keys .group ↔ c ∈ groups := by
  obtain ⟨-, -, hact, -, hng, hne⟩ := axisActions_ok hdata hE hG h
  unfold Builder.keys
  rw [hact]
  simp only [List.mem_filterMap, List.mem_append, List.mem_map, List.mem_filter]
  constructor
  · rintro ⟨a, (⟨p, -, rfl⟩ | ⟨g, ⟨hg, -⟩, rfl⟩) | ⟨g, -, rfl⟩, ha⟩
    · unfold actOf at ha
      cases hk : keyOf groups p.1 with
      | some g => rw [hk] at ha; simp at ha; subst ha; exact (keyOf_some hk).1
      | none =>
        rw [hk] at ha
        cases hk' : keyOf edges p.1 <;> rw [hk'] at ha <;> simp at ha
    · simp at ha; subst ha; exact hg
    · simp at ha
  · intro hc
    have hk := keyOf_mem hng hc
    by_cases hd : dimOf c ∈ labels data
    · obtain ⟨p, hp, hpd⟩ := List.mem_map.1 hd
      have hik : isKey edges groups p.1 = true := by rw [hpd]; simp [isKey, hk]
      refine ⟨actOf edges groups p.1, .inl (.inl ⟨p, ⟨mem_handled hp hik, ?_⟩, rfl⟩), ?_⟩
      · have := hne p.1 (hpd ▸ hd) hik
        simpa using this
      · unfold actOf; rw [hpd, hk]; simp
    · exact ⟨_, .inl (.inr ⟨c, ⟨hc, by simpa [contains_false] using hd⟩, rfl⟩), by simp⟩

theorem mem_keys_bin {data : Dims} {coords : List (Dim × Entry)} {edges groups : List Entry} {erase : List Dim} {b : Builder} (hdata : (labels data).Nodup)
    (hE : ∀ c ∈ edges, (labels c.dims).Nodup) (hG : ∀ c ∈ groups, (labels c.dims).Nodup)
    (h : axisActions data coords edges groups erase = .ok b) (c : Entry) : c ∈ b.keys .bin ↔ c ∈ edges ∧ keyOf groups (dimOf c) = none := by
  obtain ⟨hgood, hdims, hact, hnedges, hng, hne⟩ := axisActions_ok hdata hE hG h
  unfold Builder.keys
  rw [hact]
  simp only [List.mem_filterMap, List.mem_append, List.mem_map, List.mem_filter]
  constructor
  · rintro ⟨a, (⟨p, -, rfl⟩ | ⟨g, -, rfl⟩) | ⟨g, ⟨hg, hgd⟩, rfl⟩, ha⟩
    · unfold actOf at ha
      cases hk : keyOf groups p.1 with
      | some g => rw [hk] at ha; simp at ha
      | none =>
        rw [hk] at ha
        cases hk' : keyOf edges p.1 with
        | none => rw [hk'] at ha; simp at ha
        | some e =>
          rw [hk'] at ha
          simp at ha
          subst ha
          have := keyOf_some hk'
          exact ⟨this.1, by rw [this.2]; exact hk⟩
    · simp at ha
    · simp at ha
      subst ha
      refine ⟨hg, ?_⟩
      cases hk : keyOf groups (dimOf g) with
      | none => rfl
      | some c' =>
        exfalso
        obtain ⟨h1, h2⟩ := keyOf_some hk
        have hnd := hgood.1.1
        rw [hdims] at hnd
        simp only [labels, List.map_append, List.map_map] at hnd
        have := (List.nodup_append.1 hnd).2.2
        have hgd' : dimOf g ∉ labels data := by simpa [contains_false] using hgd
        refine this (dimOf g) (List.mem_append.2 (.inr ?_)) (dimOf g) ?_ rfl
        · exact List.mem_map.2 ⟨c', List.mem_filter.2 ⟨h1, by rw [h2]; simpa [contains_false] using hgd'⟩, h2⟩
        · exact List.mem_map.2 ⟨g, List.mem_filter.2 ⟨hg, hgd⟩, rfl⟩
  · rintro ⟨hc, hg⟩
    have hk := keyOf_mem hnedges hc
    by_cases hd : dimOf c ∈ labels data
    · obtain ⟨p, hp, hpd⟩ := List.mem_map.1 hd
      have hik : isKey edges groups p.1 = true := by rw [hpd]; simp [isKey, hk]
      refine ⟨actOf edges groups p.1, .inl (.inl ⟨p, ⟨mem_handled hp hik, ?_⟩, rfl⟩), ?_⟩
      · have := hne p.1 (hpd ▸ hd) hik
        simpa using this
      · unfold actOf; rw [hpd, hg, hk]; simp
    · exact ⟨_, .inr ⟨c, ⟨hc, by simpa [contains_false] using hd⟩, rfl⟩, by simp⟩

/-! ### Dictionaries -/

/-- Different keys: everything is taken over if nothing is refused. -/
theorem ofItems_items {sizes : Sizes} {ro : Bool} {items : List (Dim × Entry)} {d : SizedDict} (hn : (items.map Prod.fst).Nodup)
    (h : SizedDict.ofItems sizes items ro = .ok d) : d.items = items := by
  have : ∀ (l : List (Dim × Entry)) (c c' : SizedDict), ((c.items ++ l).map Prod.fst).Nodup → l.foldlM SizedDict.setItem c = .ok c' → c'.items = c.items ++ l := by
    intro l
    induction l with
    | nil => intro c c' _ h; simp [pure, Except.pure] at h; subst h; simp
    | cons p l ih =>
      intro c c' hn h
      simp only [List.foldlM_cons, bind, Except.bind] at h
      split at h
      · cases h
      rename_i c1 h1
      have hk : p.1 ∉ c.items.map Prod.fst := by
        rw [List.map_append, List.nodup_append] at hn
        intro hm
        exact hn.2.2 _ hm p.1 (by simp) rfl
      simp only [SizedDict.setItem, SizedDict.set, lookup_none.2 hk] at h1
      have := (insert_ok h1).2
      rw [insert_append hk] at this
      rw [ih c1 c' (by rw [this]; simpa using hn) h, this]
      simp
  unfold SizedDict.ofItems at h
  split at h
  · cases h
  rename_i c hc
  injection h with h
  subst h
  simpa using this items ⟨sizes, [], false⟩ c (by simpa using hn) hc

theorem lookup_filter {α : Type} (f : Dim × α → Bool) : ∀ (l : List (Dim × α)) (k : Dim), (l.map Prod.fst).Nodup →
    lookupEntry (l.filter f) k = (lookupEntry l k).filter (fun e => f (k, e))
  | [], k, _ => by simp [lookupEntry]
  | (k', e) :: l, k, hn => by
    rw [List.map_cons, List.nodup_cons] at hn
    by_cases hk : k' = k
    · subst hk
      cases hf : f (k', e)
      · rw [List.filter_cons_of_neg (by simp [hf]), lookup_filter f l k' hn.2, lookup_none.2 hn.1]
        simp [lookupEntry, hf, Option.filter]
      · rw [List.filter_cons_of_pos hf]
        simp [lookupEntry, hf, Option.filter]
    · cases hf : f (k', e)
      · rw [List.filter_cons_of_neg (by simp [hf]), lookup_filter f l k hn.2]
        simp [lookupEntry, hk]
      · rw [List.filter_cons_of_pos hf]
        simp only [lookupEntry, hk, if_false]
        exact lookup_filter f l k hn.2

theorem filter_keys_nodup {α : Type} {f : Dim × α → Bool} {l : List (Dim × α)} (h : (l.map Prod.fst).Nodup) : ((l.filter f).map Prod.fst).Nodup :=
  h.sublist (List.Sublist.map _ List.filter_sublist)

/-- A loop that inserts what is not there. -/
theorem lookup_insert_new {α : Type} (q : Dim × α → Bool) (c : List (Dim × α) → Dim → Bool)
    (hc : ∀ o o' k, lookupEntry o k = lookupEntry o' k → c o k = c o' k) :
    ∀ (l out : List (Dim × α)) (k : Dim), (l.map Prod.fst).Nodup →
      lookupEntry (l.foldl (fun o p => if q p && c o p.1 then insertEntry o p.1 p.2 else o) out) k =
        match lookupEntry l k with
        | some e => if q (k, e) && c out k then some e else lookupEntry out k
        | none => lookupEntry out k
  | [], out, k, _ => by simp [lookupEntry]
  | (k', e) :: l, out, k, hn => by
    rw [List.map_cons, List.nodup_cons] at hn
    rw [List.foldl_cons, lookup_insert_new q c hc l _ k hn.2]
    by_cases hk : k' = k
    · subst hk
      rw [lookup_none.2 hn.1]
      simp only [lookupEntry, if_true]
      split
      · rw [lookup_insert]; simp
      · rfl
    · have h1 : lookupEntry (if (q (k', e) && c out k') = true then insertEntry out k' e else out) k = lookupEntry out k := by
        split
        · rw [lookup_insert]; simp [Ne.symm hk]
        · rfl
      have h2 := hc _ _ k h1
      simp only [lookupEntry, hk, if_false]
      rw [h1, h2]

theorem insert_fold_nodup {α β : Type} (q : List (Dim × α) → β → Bool) (key : β → Dim) (val : β → α) : ∀ (l : List β) (out : List (Dim × α)), (out.map Prod.fst).Nodup →
    ((l.foldl (fun o p => if q o p then insertEntry o (key p) (val p) else o) out).map Prod.fst).Nodup
  | [], out, h => h
  | p :: l, out, h => by
    rw [List.foldl_cons]
    refine insert_fold_nodup q key val l _ ?_
    split
    · exact insert_nodup h _ _
    · exact h

theorem lookup_insertKeys : ∀ (keys : List Entry) (out : List (Dim × Entry)) (k : Dim), (keys.map dimOf).Nodup →
    lookupEntry (insertKeys keys out) k = match keyOf keys k with | some c => some { c with aligned := true } | none => lookupEntry out k
  | [], out, k, _ => by simp [insertKeys, keyOf]
  | c :: keys, out, k, hn => by
    rw [List.map_cons, List.nodup_cons] at hn
    have := lookup_insertKeys keys (insertEntry out (dimOf c) { c with aligned := true }) k hn.2
    unfold insertKeys at this ⊢
    rw [List.foldl_cons, this]
    by_cases hk : dimOf c = k
    · subst hk
      have h1 : keyOf keys (dimOf c) = none := keyOf_none.2 fun c' hc' he => hn.1 (he ▸ List.mem_map_of_mem hc')
      have h2 : keyOf (c :: keys) (dimOf c) = some c := by simp [keyOf]
      rw [h1, h2]
      simp [lookup_insert]
    · have h2 : keyOf (c :: keys) k = keyOf keys k := by
        unfold keyOf; rw [List.find?_cons_of_neg (by simpa using hk)]
      rw [h2]
      cases keyOf keys k with
      | some c' => rfl
      | none => simp [lookup_insert, Ne.symm hk]

theorem mem_keys_dims {data : Dims} {coords : List (Dim × Entry)} {edges groups : List Entry} {erase : List Dim} {b : Builder} (hdata : (labels data).Nodup)
    (hE : ∀ c ∈ edges, (labels c.dims).Nodup) (hG : ∀ c ∈ groups, (labels c.dims).Nodup)
    (h : axisActions data coords edges groups erase = .ok b) (d : Dim) :
    d ∈ (b.keys .bin ++ b.keys .group).map dimOf ↔ (∃ c ∈ edges, dimOf c = d) ∨ ∃ c ∈ groups, dimOf c = d := by
  simp only [List.mem_map, List.mem_append, mem_keys_group hdata hE hG h, mem_keys_bin hdata hE hG h]
  constructor
  · rintro ⟨c, ⟨h1, -⟩ | h1, h2⟩
    · exact .inl ⟨c, h1, h2⟩
    · exact .inr ⟨c, h1, h2⟩
  · rintro (⟨c, h1, h2⟩ | ⟨c, h1, h2⟩)
    · cases hk : keyOf groups (dimOf c) with
      | none => exact ⟨c, .inl ⟨h1, hk⟩, h2⟩
      | some g => exact ⟨g, .inr (keyOf_some hk).1, by rw [(keyOf_some hk).2, h2]⟩
    · exact ⟨c, .inr h1, h2⟩

theorem keys_dims_nodup {data : Dims} {coords : List (Dim × Entry)} {edges groups : List Entry} {erase : List Dim} {b : Builder} (hdata : (labels data).Nodup)
    (hE : ∀ c ∈ edges, (labels c.dims).Nodup) (hG : ∀ c ∈ groups, (labels c.dims).Nodup)
    (h : axisActions data coords edges groups erase = .ok b) : ((b.keys .bin ++ b.keys .group).map dimOf).Nodup := by
  obtain ⟨hgood, hdims, hact, -⟩ := axisActions_ok hdata hE hG h
  have hsub : ∀ k, ((b.keys k).map dimOf).Sublist (b.actions.map fun a => a.2.1) := by
    intro k
    have hall : ∀ a ∈ b.actions, ∀ c, a.2.2 = some c → dimOf c = a.2.1 := by
      rw [hact]
      intro a ha c hc
      simp only [List.mem_append, List.mem_map] at ha
      rcases ha with (⟨p, -, rfl⟩ | ⟨g, -, rfl⟩) | ⟨g, -, rfl⟩
      · unfold actOf at hc ⊢
        cases hk : keyOf groups p.1 with
        | some g => rw [hk] at hc; simp at hc; subst hc; simpa using (keyOf_some hk).2
        | none =>
          rw [hk] at hc
          cases hk' : keyOf edges p.1 with
          | some g => rw [hk'] at hc; simp at hc; subst hc; simpa using (keyOf_some hk').2
          | none => rw [hk'] at hc; simp at hc
      · simp at hc; subst hc; rfl
      · simp at hc; subst hc; rfl
    unfold Builder.keys
    generalize b.actions = l at hall
    induction l with
    | nil => simp
    | cons a l ih =>
      have ih := ih fun a' ha' => hall a' (by simp [ha'])
      rw [List.filterMap_cons]
      split
      · exact ih.trans (List.sublist_cons_self _ _)
      · rename_i c hc
        split at hc
        · have := hall a (by simp) c hc
          rw [List.map_cons, List.map_cons, this]
          exact ih.cons₂ _
        · cases hc
  have hn : (b.actions.map fun a => a.2.1).Nodup := by
    have h1 := hgood.1.1
    rw [hdims] at h1
    refine h1.sublist ?_
    rw [hact]
    simp only [labels, List.map_append, List.map_map]
    have : (fun a => a.2.1) ∘ (fun p : Dim × Int => actOf edges groups p.1) = Prod.fst ∘ newLen edges groups := by
      funext p
      simp only [Function.comp, newLen_eq]
      unfold actOf
      cases hk : keyOf groups p.1 with
      | some g => simp
      | none => cases hk' : keyOf edges p.1 <;> simp
    rw [this]
    simp only [List.append_assoc]
    exact List.sublist_append_of_sublist_right (List.Sublist.refl _)
  rw [List.map_append, List.nodup_append]
  refine ⟨hn.sublist (hsub _), hn.sublist (hsub _), ?_⟩
  intro d hd d' hd' he
  subst he
  obtain ⟨c, hc, hcd⟩ := List.mem_map.1 hd
  obtain ⟨c', hc', hcd'⟩ := List.mem_map.1 hd'
  have h1 := (mem_keys_bin hdata hE hG h c).1 hc
  have h2 := (mem_keys_group hdata hE hG h c').1 hc'
  exact keyOf_none.1 h1.2 c' h2 (by rw [hcd', hcd])

theorem keyOf_keys {data : Dims} {coords : List (Dim × Entry)} {edges groups : List Entry} {erase : List Dim} {b : Builder} (hdata : (labels data).Nodup)
    (hE : ∀ c ∈ edges, (labels c.dims).Nodup) (hG : ∀ c ∈ groups, (labels c.dims).Nodup)
    (h : axisActions data coords edges groups erase = .ok b) (d : Dim) : keyOf (b.keys .bin ++ b.keys .group) d = keyFor edges groups d := by
  have hn := keys_dims_nodup hdata hE hG h
  obtain ⟨-, -, -, hne, hng, -⟩ := axisActions_ok hdata hE hG h
  change _ = (match keyOf groups d with | some g => some g | none => keyOf edges d)
  cases hg : keyOf groups d with
  | some g =>
    obtain ⟨h1, h2⟩ := keyOf_some hg
    rw [← h2]
    exact keyOf_mem hn (List.mem_append.2 (.inr ((mem_keys_group hdata hE hG h g).2 h1)))
  | none =>
    cases he : keyOf edges d with
    | some e =>
      obtain ⟨h1, h2⟩ := keyOf_some he
      have := keyOf_mem hn (List.mem_append.2 (.inl ((mem_keys_bin hdata hE hG h e).2 ⟨h1, by rw [h2]; exact hg⟩)))
      rw [h2] at this
      exact this
    | none =>
      refine keyOf_none.2 fun c hc hcd => ?_
      rcases List.mem_append.1 hc with hc | hc
      · exact keyOf_none.1 he c ((mem_keys_bin hdata hE hG h c).1 hc).1 hcd
      · exact keyOf_none.1 hg c ((mem_keys_group hdata hE hG h c).1 hc) hcd

theorem key_in_dims {data : Dims} {coords : List (Dim × Entry)} {edges groups : List Entry} {erase : List Dim} {b : Builder} (hdata : (labels data).Nodup)
    (hE : ∀ c ∈ edges, (labels c.dims).Nodup) (hG : ∀ c ∈ groups, (labels c.dims).Nodup)
    (h : axisActions data coords edges groups erase = .ok b) {c : Entry} (hc : c ∈ b.keys .bin ++ b.keys .group) : dimOf c ∈ labels b.dims := by
  obtain ⟨-, hdims, -, -, -, hne⟩ := axisActions_ok hdata hE hG h
  have h2 : (c ∈ edges ∨ c ∈ groups) := by
    rcases List.mem_append.1 hc with hc | hc
    · exact .inl ((mem_keys_bin hdata hE hG h c).1 hc).1
    · exact .inr ((mem_keys_group hdata hE hG h c).1 hc)
  rw [hdims]
  simp only [labels, List.map_append, List.mem_append, List.mem_map, List.mem_filter]
  by_cases hd : dimOf c ∈ labels data
  · obtain ⟨p, hp, hpd⟩ := List.mem_map.1 hd
    have hik : isKey edges groups p.1 = true := by
      rw [hpd, isKey, Bool.or_eq_true]
      rcases h2 with h2 | h2
      · right
        rw [Option.isSome_iff_ne_none]
        exact fun hn => keyOf_none.1 hn c h2 rfl
      · left
        rw [Option.isSome_iff_ne_none]
        exact fun hn => keyOf_none.1 hn c h2 rfl
    exact .inl (.inl (.inr ⟨newLen edges groups p, ⟨p, ⟨mem_handled hp hik, by simpa using hne p.1 (hpd ▸ hd) hik⟩, rfl⟩, hpd⟩))
  · have hcd : (!contains data (dimOf c)) = true := by rw [contains_false.2 hd]; rfl
    rcases h2 with h2 | h2
    · exact .inr ⟨_, ⟨c, ⟨h2, hcd⟩, rfl⟩, rfl⟩
    · exact .inl (.inr ⟨_, ⟨c, ⟨h2, hcd⟩, rfl⟩, rfl⟩)

theorem rebinned_iff {dims : List Dim} {bufDim : Dim} {v : Entry} : rebinned dims bufDim v = true ↔ DependsOn v bufDim ∨ ∃ d, DependsOn v d ∧ d ∈ dims := by
  unfold rebinned DependsOn
  simp only [List.any_eq_true, Bool.or_eq_true, List.contains_iff_mem, contains_iff]
  constructor
  · rintro ⟨d, h1, h2 | h2⟩
    · exact .inr ⟨d, h1, h2⟩
    · exact .inl h2
  · rintro (h | ⟨d, h1, h2⟩)
    · exact ⟨_, h, .inr h⟩
    · exact ⟨d, h1, .inl h2⟩

theorem gone_iff {data : Dims} {coords : List (Dim × Entry)} {edges groups : List Entry} {erase : List Dim} {b : Builder} (hdata : (labels data).Nodup)
    (hE : ∀ c ∈ edges, (labels c.dims).Nodup) (hG : ∀ c ∈ groups, (labels c.dims).Nodup)
    (h : axisActions data coords edges groups erase = .ok b) {bufDim : Dim} {v : Entry} :
    rebinned (erase ++ (b.keys .bin ++ b.keys .group).map dimOf) bufDim v = true ↔ Gone edges groups erase bufDim v := by
  rw [rebinned_iff]
  unfold Gone
  simp only [List.mem_append, mem_keys_dims hdata hE hG h]

theorem lookup_unbinned {m : List (Dim × Entry)} (hm : Keys m) (bufDim k : Dim) (e : Entry) :
    lookupEntry (extractUnbinned bufDim m) k = some e ↔ lookupEntry m k = some e ∧ ¬DependsOn e bufDim := by
  unfold extractUnbinned
  rw [lookup_filter _ _ _ hm]
  unfold DependsOn
  cases hl : lookupEntry m k with
  | none => simp
  | some e' =>
    simp only [Option.filter, Option.some.injEq]
    split
    · rename_i hc
      have hc : bufDim ∉ labels e'.dims := contains_false.1 (by simpa using hc)
      constructor
      · intro h; injection h with h; subst h; exact ⟨rfl, hc⟩
      · rintro ⟨rfl, -⟩; rfl
    · rename_i hc
      have hc : bufDim ∈ labels e'.dims := contains_iff.1 (by simpa using hc)
      constructor
      · intro h; cases h
      · rintro ⟨rfl, h⟩; exact absurd hc h

theorem lookup_erase {α : Type} : ∀ (l : List (Dim × α)) (k k' : Dim), k ≠ k' → lookupEntry (eraseEntry l k) k' = lookupEntry l k'
  | [], k, k', _ => rfl
  | (j, e) :: l, k, k', h => by
    unfold eraseEntry
    split
    · rename_i hj
      subst hj
      simp [lookupEntry, h]
    · simp only [lookupEntry]
      rw [lookup_erase l k k' h]

theorem dropGrouped_lookup : ∀ (groups : List Entry) (l : List (Dim × Entry)) (k : Dim), keyOf groups k = none → lookupEntry (dropGrouped l groups) k = lookupEntry l k
  | [], l, k, _ => rfl
  | g :: groups, l, k, h => by
    have h' := keyOf_none.1 h
    have := dropGrouped_lookup groups (eraseEntry l (dimOf g)) k (keyOf_none.2 fun c hc => h' c (by simp [hc]))
    unfold dropGrouped at this ⊢
    rw [List.foldl_cons, this, lookup_erase _ _ _ (h' g (by simp))]

theorem dropGrouped_nodup : ∀ (groups : List Entry) (l : List (Dim × Entry)), (l.map Prod.fst).Nodup → ((dropGrouped l groups).map Prod.fst).Nodup
  | [], l, h => h
  | g :: groups, l, h => by
    unfold dropGrouped
    rw [List.foldl_cons]
    exact dropGrouped_nodup groups _ (h.sublist (List.Sublist.map _ (eraseEntry_sublist l _)))

theorem dropGrouped_sub : ∀ (groups : List Entry) (l : List (Dim × Entry)), ∀ p ∈ dropGrouped l groups, p ∈ l
  | [], l => fun _ h => h
  | g :: groups, l => by
    unfold dropGrouped
    rw [List.foldl_cons]
    exact fun p hp => (eraseEntry_sublist l _).subset (dropGrouped_sub groups _ p hp)

theorem fold_all {α β : Type} (P : α → Prop) (q : List (Dim × α) → β → Bool) (key : β → Dim) (val : β → α) : ∀ (l : List β) (out : List (Dim × α)),
    (∀ b ∈ l, P (val b)) → (∀ p ∈ out, P p.2) → ∀ p ∈ l.foldl (fun o p => if q o p then insertEntry o (key p) (val p) else o) out, P p.2
  | [], out, _, h => h
  | b :: l, out, hl, h => by
    rw [List.foldl_cons]
    refine fold_all P q key val l _ (fun b' hb' => hl b' (by simp [hb'])) ?_
    split
    · intro p hp
      rcases (mem_insert hp).symm with hp | hp
      · rw [hp]; exact hl b (by simp)
      · exact h p hp
    · exact h

theorem out_wf {x : Input} {coords : List (Dim × Entry)} {edges groups : List Entry} {erase : List Dim} {b : Builder} {s o : Dims} (hd : WF x.dims) (hv : Dim.invalid ∉ labels x.dims)
    (hE : ∀ c ∈ edges, (labels c.dims).Nodup) (hG : ∀ c ∈ groups, (labels c.dims).Nodup) (h : axisActions x.dims coords edges groups erase = .ok b)
    (hs : sizesDims x b = .ok s) (hq : squeezeDims s erase = .ok o) : WF o := by
  obtain ⟨hgood, -⟩ := axisActions_ok hd.1 hE hG h
  have hDgood : Good (if x.binned then x.dims.filter (fun p => !contains b.dims p.1) else []) := by
    split
    · have hsub : (x.dims.filter (fun p => !contains b.dims p.1)).Sublist x.dims := List.filter_sublist
      exact ⟨⟨hd.1.sublist (List.Sublist.map _ hsub), fun p hp => hd.2 p (hsub.subset hp)⟩, fun hc => hv ((List.Sublist.map _ hsub).subset hc)⟩
    · exact ⟨⟨by simp [labels], by simp⟩, by simp [labels]⟩
  have hdis : ∀ d ∈ labels (if x.binned then x.dims.filter (fun p => !contains b.dims p.1) else []), d ∉ labels b.dims := by
    split
    · intro d hd hc
      obtain ⟨p, hp, rfl⟩ := List.mem_map.1 hd
      have := (List.mem_filter.1 hp).2
      exact contains_false.1 (by simpa using this) hc
    · simp [labels]
  have hs := merge_disjoint hDgood hgood hdis hs
  have hws : WF s := by
    rw [hs]
    refine ⟨?_, fun p hp => ?_⟩
    · rw [labels_append, List.nodup_append]
      exact ⟨hDgood.1.1, hgood.1.1, fun d h1 d' h2 he => hdis d h1 (he ▸ h2)⟩
    · rcases List.mem_append.1 hp with hp | hp
      · exact hDgood.1.2 p hp
      · exact hgood.1.2 p hp
  unfold squeezeDims at hq
  split at hq
  · injection hq with hq
    rw [← hq]
    exact ⟨hws.1.sublist (List.Sublist.map _ List.filter_sublist), fun p hp => hws.2 p (List.mem_filter.1 hp).1⟩
  · cases hq

end Scipp.BinMeta
