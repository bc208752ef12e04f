import Verif.Lemmas.BinMeta2
import Verif.Spec.GroupConcat
/-
Lemmas for C98: the builder of `groupby_concat_bins`.
-/
namespace Scipp.GroupConcat
open Scipp Sizes BinMeta Props

theorem join_adds {b b' : Builder} {e : Entry} {d : Dim} (h : join b e d = .ok b') : Adds b b' (d, 1) [(.bin, d, some e)] := by
  unfold join at h
  split at h
  · rename_i dims hd
    injection h with h
    subst h
    obtain ⟨h1, h2, h3, rfl⟩ := (C01_add_iff _ _ _ _).2.1 hd
    exact ⟨h1, h2, h3, rfl, rfl⟩
  · cases h

/-- Whether the bins along a dimension are joined. -/
def isJoined (x : Input) (red d : Dim) : Bool := (lookupEntry (x.attrs ++ x.coords) d).any fun c => decide (c.dims.length ≠ 1 ∧ contains c.dims red = true)

theorem isJoined_iff {x : Input} {red d : Dim} : isJoined x red d = true ↔ Joined x red d := by
  unfold isJoined Joined
  cases lookupEntry (x.attrs ++ x.coords) d with
  | none => simp
  | some c => simp [contains_iff]

/-- Whether there is a coord. -/
def hasCoordB (x : Input) (d : Dim) : Bool := (lookupEntry (x.attrs ++ x.coords) d).isSome

theorem lookup_isSome {α : Type} : ∀ (l : List (Dim × α)) (d : Dim), (lookupEntry l d).isSome = true ↔ d ∈ l.map Prod.fst
  | [], d => by simp [lookupEntry]
  | (k, e) :: l, d => by
    unfold lookupEntry
    by_cases h : k = d
    · simp [h]
    · rw [if_neg h, lookup_isSome l d]
      simp [show ¬ d = k from fun h' => h h'.symm]

theorem hasCoordB_iff {x : Input} {d : Dim} : hasCoordB x d = true ↔ HasCoord x d := lookup_isSome _ _

theorem joined_has {x : Input} {red d : Dim} (h : isJoined x red d = true) : hasCoordB x d = true := by
  unfold isJoined at h
  unfold hasCoordB
  cases hl : lookupEntry (x.attrs ++ x.coords) d with
  | none => rw [hl] at h; simp at h
  | some c => rfl

/-- The dimensions of the array that the loop adds to the builder. -/
def sel (x : Input) (red : Dim) (p : Dim × Int) : Bool := hasCoordB x p.1 && (isJoined x red p.1 || p.1 != red)

def newDim (x : Input) (red : Dim) (p : Dim × Int) : Dim × Int := (p.1, if isJoined x red p.1 then 1 else p.2)

def newAct (x : Input) (fresh : Dim → Nat) (red : Dim) (p : Dim × Int) : List (Kind × Dim × Option Entry) :=
  if isJoined x red p.1 then [(.bin, p.1, some (joinedEdges (fresh p.1) p.1))] else [(.existing, p.1, none)]

theorem step_adds {x : Input} {fresh : Dim → Nat} {red : Dim} {b b' : Builder} {p : Dim × Int} (h : step (x.attrs ++ x.coords) fresh red b p = .ok b') :
    if sel x red p then Adds b b' (newDim x red p) (newAct x fresh red p) else b' = b := by
  unfold step at h
  unfold sel newDim newAct hasCoordB isJoined
  cases hl : lookupEntry (x.attrs ++ x.coords) p.1 with
  | none =>
    rw [hl] at h
    injection h with h
    simp [h]
  | some c =>
    rw [hl] at h
    simp only at h
    by_cases hj : c.dims.length ≠ 1 ∧ contains c.dims red = true
    · rw [if_pos hj] at h
      have := join_adds h
      simpa [hj] using this
    · rw [if_neg hj] at h
      by_cases hr : p.1 ≠ red
      · rw [if_pos hr] at h
        have := existing_adds h
        simpa [hj, hr] using this
      · rw [if_neg hr] at h
        injection h with h
        simp [hj, hr, h]

/-- The keys that are given. -/
def given (edges groups : Option Entry) : List Entry := edges.toList ++ groups.toList

def startDims (edges groups : Option Entry) : Dims := edges.toList.map (fun c => (dimOf c, lenOf c - 1)) ++ groups.toList.map fun c => (dimOf c, lenOf c)

def startActs (edges groups : Option Entry) : List (Kind × Dim × Option Entry) :=
  edges.toList.map (fun c => (.bin, dimOf c, some c)) ++ groups.toList.map fun c => (.group, dimOf c, some c)

theorem good_nil : Good [] := ⟨⟨by simp [labels], by simp⟩, by simp [labels]⟩

theorem start_ok {edges groups : Option Entry} {b : Builder} (hk : ∀ c ∈ given edges groups, (labels c.dims).Nodup) (h : start edges groups = .ok b) :
    Good b.dims ∧ b.dims = startDims edges groups ∧ b.actions = startActs edges groups := by
  have key : ∀ b0 : Builder, Good b0.dims → (match groups with | some g => b0.group g | none => .ok b0) = .ok b →
      Good b.dims ∧ b.dims = b0.dims ++ (groups.toList.map fun c => (dimOf c, lenOf c)) ∧ b.actions = b0.actions ++ (groups.toList.map fun c => (Kind.group, dimOf c, some c)) := by
    intro b0 hg h
    cases groups with
    | none => injection h with h; subst h; simp [hg]
    | some g =>
      have := group_adds (hk g (by simp [given])) h
      exact ⟨this.good hg, this.2.2.2.1, this.2.2.2.2⟩
  unfold start at h
  cases edges with
  | none =>
    have := key ⟨[], []⟩ good_nil h
    simpa [startDims, startActs] using this
  | some e =>
    simp only at h
    cases he : Builder.bin ⟨[], []⟩ e with
    | error err => rw [he] at h; cases h
    | ok b0 =>
      rw [he] at h
      have h0 := bin_adds (hk e (by simp [given])) he
      obtain ⟨h1, h2, h3⟩ := key b0 (h0.good good_nil) h
      refine ⟨h1, ?_, ?_⟩
      · rw [h2, h0.2.2.2.1]; rfl
      · rw [h3, h0.2.2.2.2]; rfl

theorem builder_ok {x : Input} {fresh : Dim → Nat} {edges groups : Option Entry} {red : Dim} {b : Builder} (hk : ∀ c ∈ given edges groups, (labels c.dims).Nodup)
    (h : builder x fresh edges groups red = .ok b) :
    Good b.dims ∧ b.dims = startDims edges groups ++ [(red, 1)] ++ (x.dims.filter (sel x red)).map (newDim x red) ∧
      b.actions = startActs edges groups ++ (x.dims.filter (sel x red)).flatMap (newAct x fresh red) := by
  unfold builder at h
  split at h
  · cases h
  rename_i b0 hb0
  obtain ⟨g0, d0, a0⟩ := start_ok hk hb0
  split at h
  · cases h
  rename_i b1 hb1
  have e1 := erase_adds hb1
  obtain ⟨g2, d2, a2⟩ := loop_adds (P := fun _ => True) (sel x red) (newDim x red) (newAct x fresh red) (fun b b' p _ hp => step_adds hp) x.dims b1 b (fun _ _ => trivial) h (e1.good g0)
  refine ⟨g2, ?_, ?_⟩
  · rw [d2, e1.2.2.2.1, d0]
  · rw [a2, e1.2.2.2.2, a0, List.append_nil]

/-- The edges and groups of the builder. -/
theorem builder_keys {x : Input} {fresh : Dim → Nat} {edges groups : Option Entry} {red : Dim} {b : Builder} (hk : ∀ c ∈ given edges groups, (labels c.dims).Nodup)
    (h : builder x fresh edges groups red = .ok b) :
    b.keys .bin = edges.toList ++ (x.dims.filter fun p => isJoined x red p.1).map (fun p => joinedEdges (fresh p.1) p.1) ∧ b.keys .group = groups.toList := by
  obtain ⟨-, -, ha⟩ := builder_ok hk h
  have loop : ∀ (l : Dims) (k : Kind), ((l.filter (sel x red)).flatMap (newAct x fresh red)).filterMap (fun a => if a.1 = k then a.2.2 else none) =
      if k = .bin then (l.filter fun p => isJoined x red p.1).map (fun p => joinedEdges (fresh p.1) p.1) else [] := by
    intro l k
    induction l with
    | nil => simp
    | cons p l ih =>
      by_cases hj : isJoined x red p.1 = true
      · have hs : sel x red p = true := by simp [sel, joined_has hj, hj]
        rw [List.filter_cons_of_pos hs, List.filter_cons_of_pos (by simpa using hj), List.flatMap_cons, List.filterMap_append, ih]
        cases k <;> simp [newAct, hj]
      · rw [List.filter_cons_of_neg (p := fun p : Dim × Int => isJoined x red p.1) (by simpa using hj)]
        by_cases hs : sel x red p = true
        · rw [List.filter_cons_of_pos hs, List.flatMap_cons, List.filterMap_append, ih]
          cases k <;> simp [newAct, hj]
        · rw [List.filter_cons_of_neg hs, ih]
  unfold Builder.keys
  rw [ha]
  simp only [List.filterMap_append, loop, startActs]
  constructor <;> cases edges <;> cases groups <;> simp

/-- The parts of a call of `groupby_concat_bins`. -/
theorem concatBins_ok {x : Input} {fresh : Dim → Nat} {edges groups : Option Entry} {red : Dim} {out : Output} (h : concatBins x fresh edges groups red = .ok out) :
    ∃ b s c m a, builder x fresh edges groups red = .ok b ∧ coordsOk x edges groups = true ∧ sizesDims x b = .ok s ∧ squeezeDims s [red] = .ok out.dims ∧
      SizedDict.ofItems out.dims (insertCoords ([red] ++ (b.keys .bin ++ b.keys .group).map dimOf) x.bufDim x.coords
        (insertKeys (b.keys .bin ++ b.keys .group) (extractUnbinned x.bufDim x.bufCoords))) false = .ok c ∧ out.coords = c.items ∧
      SizedDict.ofItems out.dims (insertMasks ([red] ++ (b.keys .bin ++ b.keys .group).map dimOf) x.bufDim x.masks (extractUnbinned x.bufDim x.bufMasks)) false = .ok m ∧
      out.masks = m.items ∧
      SizedDict.ofItems out.dims (insertAttrs ([red] ++ (b.keys .bin ++ b.keys .group).map dimOf) x.bufDim
        (insertCoords ([red] ++ (b.keys .bin ++ b.keys .group).map dimOf) x.bufDim x.coords
          (insertKeys (b.keys .bin ++ b.keys .group) (extractUnbinned x.bufDim x.bufCoords)))
        x.attrs (extractUnbinned x.bufDim x.bufAttrs)) false = .ok a ∧ out.attrs = a.items ∧
      out.hidden = (if x.binned then x.masks.filter (fun p => (Sizes.labels p.2.dims).any (Sizes.contains b.dims ·)) else []) := by
  unfold concatBins at h
  split at h
  · cases h
  rename_i b hb
  split at h
  swap
  · cases h
  rename_i hco
  unfold addMetadata at h
  split at h
  · cases h
  rename_i s hs
  split at h
  · cases h
  rename_i o ho
  simp only [] at h
  split at h
  · rename_i c m a hc hm ha
    injection h with h
    subst h
    exact ⟨b, s, c, m, a, hb, hco, hs, ho, hc, rfl, hm, rfl, ha, rfl, rfl⟩
  · cases h
  · cases h
  · cases h

end Scipp.GroupConcat
