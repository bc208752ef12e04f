import Verif.Lemmas.Sizes
import Verif.Spec.View
import Mathlib.Data.List.Perm.Subperm
import Mathlib.Tactic.Ring
import Mathlib.Tactic.Linarith

namespace Scipp
open Sizes

namespace Sizes

@[simp] theorem shape_nil : shape [] = [] := rfl
@[simp] theorem shape_cons (p : Dim × Int) (s : Sizes) : shape (p :: s) = p.2 :: shape s := rfl
@[simp] theorem shape_append (a b : Sizes) : shape (a ++ b) = shape a ++ shape b := by
  simp [shape]
@[simp] theorem length_shape (s : Sizes) : (shape s).length = s.length := by simp [shape]
@[simp] theorem length_labels (s : Sizes) : (labels s).length = s.length := by simp [labels]

/-- Split at the (first) occurrence of a label. -/
theorem split_label : ∀ {s : Sizes} {d : Dim}, d ∈ labels s →
    ∃ pre n post, s = pre ++ (d, n) :: post ∧ d ∉ labels pre
  | [], d, h => by simp at h
  | p :: s, d, h => by
    by_cases hp : p.1 = d
    · exact ⟨[], p.2, s, by simp [← hp], by simp⟩
    · have h' : d ∈ labels s := by
        simp only [labels_cons, List.mem_cons] at h
        exact h.resolve_left (fun e => hp e.symm)
      obtain ⟨pre, n, post, rfl, hn⟩ := split_label h'
      exact ⟨p :: pre, n, post, by simp, by simp [hn, Ne.symm hp]⟩

theorem at?_mid {pre post : Sizes} {d : Dim} {n : Int} (h : d ∉ labels pre) :
    at? (pre ++ (d, n) :: post) d = .ok n := by
  induction pre with
  | nil => simp [at?]
  | cons p pre ih =>
    simp only [labels_cons, List.mem_cons, not_or] at h
    simp [at?, Ne.symm h.1, ih h.2]

theorem index_mid {pre post : Sizes} {d : Dim} {n : Int} (h : d ∉ labels pre) :
    index (pre ++ (d, n) :: post) d = .ok pre.length := by
  induction pre with
  | nil => simp [index]
  | cons p pre ih =>
    simp only [labels_cons, List.mem_cons, not_or] at h
    simp [index, Ne.symm h.1, ih h.2, Except.map]

theorem erase_mid {pre post : Sizes} {d : Dim} {n : Int} (h : d ∉ labels pre) :
    erase (pre ++ (d, n) :: post) d = .ok (pre ++ post) := by
  induction pre with
  | nil => simp [erase]
  | cons p pre ih =>
    simp only [labels_cons, List.mem_cons, not_or] at h
    simp [erase, Ne.symm h.1, ih h.2, Except.map]

theorem assign_mid {pre post : Sizes} {d : Dim} {n x : Int} (h : d ∉ labels pre) :
    assign (pre ++ (d, n) :: post) d x = .ok (pre ++ (d, x) :: post) := by
  induction pre with
  | nil => simp [assign]
  | cons p pre ih =>
    simp only [labels_cons, List.mem_cons, not_or] at h
    simp [assign, Ne.symm h.1, ih h.2, Except.map]

theorem setKey_mid {pre post : Sizes} {d d' : Dim} {n : Int} (h : d ∉ labels pre) :
    setKey (pre ++ (d, n) :: post) d d' = .ok (pre ++ (d', n) :: post) := by
  induction pre with
  | nil => simp [setKey]
  | cons p pre ih =>
    simp only [labels_cons, List.mem_cons, not_or] at h
    simp [setKey, Ne.symm h.1, ih h.2, Except.map]

theorem nodup_mid {pre post : Sizes} {d : Dim} {n : Int} (h : (labels (pre ++ (d, n) :: post)).Nodup) :
    d ∉ labels pre ∧ d ∉ labels post ∧ (labels pre).Nodup ∧ (labels post).Nodup ∧
    ∀ e ∈ labels pre, e ∉ labels post := by
  simp only [labels_append, labels_cons] at h
  rw [List.nodup_append] at h
  obtain ⟨h1, h2, h3⟩ := h
  rw [List.nodup_cons] at h2
  exact ⟨fun e => h3 d e d (by simp) rfl, h2.1, h1, h2.2,
    fun e he hp => h3 e he e (List.mem_cons_of_mem _ hp) rfl⟩

theorem index_error {s : Sizes} {d : Dim} (h : d ∉ labels s) : index s d = .error .dimension := by
  induction s with
  | nil => rfl
  | cons p s ih =>
    simp only [labels_cons, List.mem_cons, not_or] at h
    simp [index, Ne.symm h.1, ih h.2, Except.map]

end Sizes

/-! ### volume, position -/

theorem foldl_mul (s : Dims) : ∀ a : Int, s.foldl (fun acc p => acc * p.2) a = a * Dims.volume s := by
  induction s with
  | nil => intro a; simp [Dims.volume]
  | cons p s ih =>
    intro a
    simp only [List.foldl_cons, Dims.volume]
    rw [ih, ih (1 * p.2)]; ring

@[simp] theorem volume_nil : Dims.volume [] = 1 := rfl
@[simp] theorem volume_cons (p : Dim × Int) (s : Dims) : Dims.volume (p :: s) = p.2 * Dims.volume s := by
  simp only [Dims.volume, List.foldl_cons]
  rw [foldl_mul]; simp [Dims.volume]
@[simp] theorem volume_append (a b : Dims) : Dims.volume (a ++ b) = Dims.volume a * Dims.volume b := by
  induction a with
  | nil => simp
  | cons p a ih => simp [ih]; ring

theorem volume_nonneg {s : Dims} (h : ∀ p ∈ s, 0 ≤ p.2) : 0 ≤ Dims.volume s := by
  induction s with
  | nil => simp
  | cons p s ih =>
    rw [volume_cons]
    exact mul_nonneg (h p (by simp)) (ih (fun q hq => h q (List.mem_cons_of_mem _ hq)))

theorem volume_perm {a b : Dims} (h : a.Perm b) : Dims.volume a = Dims.volume b := by
  induction h with
  | nil => rfl
  | cons _ _ ih => simp [ih]
  | swap => simp; ring
  | trans _ _ h1 h2 => exact h1.trans h2

/-! ### addresses -/

@[simp] theorem addrAux_nil (st : List Int) (c : Dim → Int) : addrAux [] st c = 0 := by
  simp [addrAux]
@[simp] theorem addrAux_cons (p : Dim × Int) (s : Dims) (x : Int) (st : List Int) (c : Dim → Int) :
    addrAux (p :: s) (x :: st) c = c p.1 * x + addrAux s st c := rfl

theorem addrAux_append {s1 s2 : Dims} {st1 st2 : List Int} (h : st1.length = s1.length) (c : Dim → Int) :
    addrAux (s1 ++ s2) (st1 ++ st2) c = addrAux s1 st1 c + addrAux s2 st2 c := by
  induction s1 generalizing st1 with
  | nil => cases st1 with
    | nil => simp
    | cons _ _ => simp at h
  | cons p s1 ih => cases st1 with
    | nil => simp at h
    | cons x st1 =>
      simp only [List.length_cons, Nat.add_right_cancel_iff] at h
      simp only [List.cons_append, addrAux_cons, ih h]; ring

theorem addrAux_congr {s : Dims} {st : List Int} {c c' : Dim → Int}
    (h : ∀ d ∈ labels s, c d = c' d) : addrAux s st c = addrAux s st c' := by
  induction s generalizing st with
  | nil => simp
  | cons p s ih => cases st with
    | nil => simp [addrAux]
    | cons x st =>
      rw [addrAux_cons, addrAux_cons, h p.1 (by simp),
        ih (fun d hd => h d (by simp [hd]))]

theorem addrAux_upd {s : Dims} {st : List Int} {c : Dim → Int} {d : Dim} {x : Int}
    (h : d ∉ labels s) : addrAux s st (upd c d x) = addrAux s st c :=
  addrAux_congr (fun e he => by
    have : e ≠ d := fun h' => h (h' ▸ he)
    simp [upd, this])

theorem addrAux_mul {s : Dims} {st : List Int} {c : Dim → Int} (x : Int) :
    addrAux s (st.map (x * ·)) c = x * addrAux s st c := by
  induction s generalizing st with
  | nil => simp
  | cons p s ih => cases st with
    | nil => simp [addrAux]
    | cons y st => simp only [List.map_cons, addrAux_cons, ih]; ring

@[simp] theorem upd_same (c : Dim → Int) (d : Dim) (x : Int) : upd c d x d = x := by simp [upd]
theorem upd_ne {c : Dim → Int} {d e : Dim} {x : Int} (h : e ≠ d) : upd c d x e = c e := by
  simp [upd, h]

/-- Address at a dims/strides split around one dimension. -/
theorem addrAux_mid {pre post : Dims} {spre spost : List Int} {d : Dim} {n x : Int}
    (h : spre.length = pre.length) (c : Dim → Int) :
    addrAux (pre ++ (d, n) :: post) (spre ++ x :: spost) c =
      addrAux pre spre c + (c d * x + addrAux post spost c) := by
  rw [addrAux_append h, addrAux_cons]

/-- Splitting the strides alongside the dims. -/
theorem split_strides {pre post : Dims} {p : Dim × Int} {st : List Int}
    (h : st.length = (pre ++ p :: post).length) :
    ∃ spre x spost, st = spre ++ x :: spost ∧ spre.length = pre.length ∧ spost.length = post.length := by
  have hl : pre.length < st.length := by simp at h; omega
  refine ⟨st.take pre.length, st[pre.length], st.drop (pre.length + 1), ?_, ?_, ?_⟩
  · simp
  · simp; omega
  · simp at h ⊢; omega

theorem split_strides2 {a b : Dims} {st : List Int} (h : st.length = (a ++ b).length) :
    ∃ sa sb, st = sa ++ sb ∧ sa.length = a.length ∧ sb.length = b.length := by
  refine ⟨st.take a.length, st.drop a.length, by simp, ?_, ?_⟩ <;> simp at h ⊢ <;> omega

theorem getD_mid {α : Type} (a : List α) (x : α) (b : List α) (n : Nat) (h : a.length = n) (y : α) :
    (a ++ x :: b).getD n y = x := by
  subst h; simp [List.getD]

theorem eraseIdx_mid {α : Type} (a : List α) (x : α) (b : List α) (n : Nat) (h : a.length = n) :
    (a ++ x :: b).eraseIdx n = a ++ b := by
  subst h
  rw [List.eraseIdx_append_of_length_le (Nat.le_refl _)]; simp

theorem modify_mid {α : Type} (a : List α) (x : α) (b : List α) (n : Nat) (h : a.length = n) (f : α → α) :
    (a ++ x :: b).modify n f = a ++ f x :: b := by
  subst h
  induction a with
  | nil => rfl
  | cons y a ih => simp [ih]

/-! ### row-major position -/

theorem rowMajorAux_snd : ∀ s : Dims, (rowMajorAux (shape s)).2 = Dims.volume s
  | [] => rfl
  | p :: s => by simp [rowMajorAux, rowMajorAux_snd s]; ring

@[simp] theorem rowMajor_nil : rowMajor [] = [] := rfl
@[simp] theorem rowMajor_shape_cons (p : Dim × Int) (s : Dims) :
    rowMajor (p.2 :: shape s) = Dims.volume s :: rowMajor (shape s) := by
  simp [rowMajor, rowMajorAux, rowMajorAux_snd]

@[simp] theorem length_rowMajor (l : List Int) : (rowMajor l).length = l.length := by
  induction l with
  | nil => rfl
  | cons x l ih => simpa [rowMajor, rowMajorAux] using ih

theorem foldl_position (s : Dims) (c : Dim → Int) : ∀ a : Int,
    s.foldl (fun acc p => acc * p.2 + c p.1) a =
      a * Dims.volume s + addrAux s (rowMajor (shape s)) c := by
  induction s with
  | nil => intro a; simp
  | cons p s ih =>
    intro a
    rw [List.foldl_cons, ih, shape_cons, rowMajor_shape_cons, addrAux_cons, volume_cons]; ring

/-- Horner position = strided sum with row-major strides. -/
theorem position_eq (s : Dims) (c : Dim → Int) :
    position s c = addrAux s (rowMajor (shape s)) c := by
  rw [position, foldl_position]; ring

@[simp] theorem position_nil (c : Dim → Int) : position [] c = 0 := rfl
@[simp] theorem position_cons (p : Dim × Int) (s : Dims) (c : Dim → Int) :
    position (p :: s) c = c p.1 * Dims.volume s + position s c := by
  rw [position_eq, position_eq, shape_cons, rowMajor_shape_cons, addrAux_cons]

theorem InDims.tail {p : Dim × Int} {s : Dims} {c : Dim → Int} (h : InDims (p :: s) c) : InDims s c :=
  fun d n hm => h d n (List.mem_cons_of_mem _ hm)

theorem InDims.head {p : Dim × Int} {s : Dims} {c : Dim → Int} (h : InDims (p :: s) c) :
    0 ≤ c p.1 ∧ c p.1 < p.2 := h p.1 p.2 (by simp)

theorem position_bounds {s : Dims} {c : Dim → Int} (h : InDims s c) :
    0 ≤ position s c ∧ position s c < Dims.volume s := by
  induction s with
  | nil => simp
  | cons p s ih =>
    obtain ⟨h1, h2⟩ := ih h.tail
    obtain ⟨h3, h4⟩ := h.head
    rw [position_cons, volume_cons]
    constructor
    · nlinarith
    · have : c p.1 * Dims.volume s ≤ (p.2 - 1) * Dims.volume s :=
        mul_le_mul_of_nonneg_right (by omega) (by omega)
      nlinarith

theorem coordsOf_position {s : Dims} {c : Dim → Int} (hn : (labels s).Nodup) (h : InDims s c) :
    ∀ d ∈ labels s, coordsOf s (position s c) d = c d := by
  induction s with
  | nil => simp
  | cons p s ih =>
    simp only [labels_cons, List.nodup_cons] at hn
    obtain ⟨h1, h2⟩ := position_bounds h.tail
    have hv : 0 < Dims.volume s := by omega
    intro d hd
    simp only [labels_cons, List.mem_cons] at hd
    simp only [coordsOf, position_cons]
    split
    · rename_i he
      subst he
      rw [Int.mul_comm, Int.mul_add_ediv_left _ _ (by omega), Int.ediv_eq_zero_of_lt h1 h2]; simp
    · rename_i he
      rw [Int.mul_comm, Int.mul_add_emod_self_left, Int.emod_eq_of_lt h1 h2]
      exact ih hn.2 h.tail d (hd.resolve_left he)

theorem volume_pos_of_lt {n v k : Int} (hn : 0 ≤ n) (hv : 0 ≤ v) (h0 : 0 ≤ k) (h1 : k < n * v) :
    0 < n ∧ 0 < v := by
  constructor
  · rcases Int.lt_or_eq_of_le hn with h | h
    · exact h
    · subst h; omega
  · rcases Int.lt_or_eq_of_le hv with h | h
    · exact h
    · subst h; omega

theorem Sizes.WF.tail {p : Dim × Int} {s : Dims} (h : WF (p :: s)) : WF s :=
  ⟨(List.nodup_cons.1 h.1).2, fun q hq => h.2 q (List.mem_cons_of_mem _ hq)⟩

theorem coordsOf_inDims {s : Dims} (hw : WF s) : ∀ {k : Int}, 0 ≤ k → k < Dims.volume s →
    InDims s (coordsOf s k) := by
  induction s with
  | nil => intro k _ _ d n hm; simp at hm
  | cons p s ih =>
    intro k h0 h1 d n hm
    have hn := List.nodup_cons.1 hw.1
    rw [volume_cons] at h1
    obtain ⟨hp, hv⟩ := volume_pos_of_lt (hw.2 p (by simp)) (volume_nonneg hw.tail.2) h0 h1
    simp only [coordsOf]
    rcases List.mem_cons.1 hm with hm | hm
    · have hd : d = p.1 := congrArg Prod.fst hm
      have hx : n = p.2 := congrArg Prod.snd hm
      subst hd hx
      simp only [if_pos]
      exact ⟨Int.ediv_nonneg h0 (by omega), (Int.ediv_lt_iff_lt_mul hv).2 h1⟩
    · have hd : d ≠ p.1 := fun e => hn.1 (e ▸ mem_labels hm)
      simp only [if_neg hd]
      exact ih hw.tail (Int.emod_nonneg _ (by omega)) (Int.emod_lt_of_pos _ hv) d n hm

theorem position_congr {s : Dims} {c c' : Dim → Int} (h : ∀ d ∈ labels s, c d = c' d) :
    position s c = position s c' := by
  rw [position_eq, position_eq, addrAux_congr h]

theorem position_coordsOf {s : Dims} (hw : WF s) : ∀ {k : Int}, 0 ≤ k → k < Dims.volume s →
    position s (coordsOf s k) = k := by
  induction s with
  | nil => intro k h0 h1; simp at h1; simp; omega
  | cons p s ih =>
    intro k h0 h1
    have hn := List.nodup_cons.1 hw.1
    rw [volume_cons] at h1
    obtain ⟨hp, hv⟩ := volume_pos_of_lt (hw.2 p (by simp)) (volume_nonneg hw.tail.2) h0 h1
    rw [position_cons]
    have h2 : position s (coordsOf (p :: s) k) = position s (coordsOf s (k % Dims.volume s)) := by
      apply position_congr
      intro d hd
      have : d ≠ p.1 := fun e => hn.1 (e ▸ hd)
      simp [coordsOf, this]
    rw [h2, ih hw.tail (Int.emod_nonneg _ (by omega)) (Int.emod_lt_of_pos _ hv)]
    simp only [coordsOf, if_pos]
    exact Int.ediv_mul_add_emod k _

/-- Same position iff same coordinates. -/
theorem position_inj {s : Dims} {c c' : Dim → Int} (hn : (labels s).Nodup) (h : InDims s c)
    (h' : InDims s c') (he : position s c = position s c') : ∀ d ∈ labels s, c d = c' d := by
  intro d hd
  rw [← coordsOf_position hn h d hd, ← coordsOf_position hn h' d hd, he]

/-! ### views -/

theorem rowMajor_nonneg {s : Dims} (h : ∀ p ∈ s, 0 ≤ p.2) : ∀ x ∈ rowMajor (shape s), 0 ≤ x := by
  induction s with
  | nil => simp
  | cons p s ih =>
    have h' : ∀ q ∈ s, 0 ≤ q.2 := fun q hq => h q (List.mem_cons_of_mem _ hq)
    rw [shape_cons, rowMajor_shape_cons]
    intro x hx
    rcases List.mem_cons.1 hx with hx | hx
    · subst hx; exact volume_nonneg h'
    · exact ih h' x hx

theorem fresh_WF {s : Dims} (h : Sizes.WF s) : (View.fresh s).WF :=
  ⟨h, by simp [View.fresh], rowMajor_nonneg h.2⟩

theorem fresh_addr (s : Dims) (c : Dim → Int) : (View.fresh s).addr c = position s c := by
  rw [position_eq]; simp [View.addr, View.fresh]

theorem fresh_distinct {s : Dims} (h : (labels s).Nodup) : (View.fresh s).Distinct := by
  intro c c' hc hc' he
  rw [fresh_addr, fresh_addr] at he
  exact position_inj h hc hc' he

theorem fresh_inBounds (s : Dims) : (View.fresh s).InBounds (Dims.volume s) := by
  intro c hc
  rw [fresh_addr]
  exact position_bounds hc

/-! ### slicing -/

/-- Any slice made by the constructors: start ≥ 0 and either a point or a range with
`start ≤ stop` and positive stride. -/
theorem Slice.Constructed.spec {p : Slice} (h : p.Constructed) :
    0 ≤ p.start ∧ 0 < p.stride ∧ (p.stop = -1 ∨ p.start ≤ p.stop) := by
  rcases h with h | h
  · simp only [Slice.range] at h
    split at h
    · simp at h
    split at h
    · simp at h
    split at h
    · simp at h
    split at h
    · simp at h
    refine ⟨by omega, by omega, ?_⟩
    rename_i h2 _ _
    by_cases he : p.stop = -1
    · exact .inl he
    · right; exact not_lt.1 (fun hlt => h2 ⟨he, hlt⟩)
  · simp only [Slice.point] at h
    split at h
    · simp at h
    · injection h with h
      rw [← h]
      exact ⟨by simpa using by omega, by simp, by simp⟩

theorem Slice.Constructed.ne_none {p : Slice} (h : p.Constructed) : p ≠ Slice.none := by
  intro e
  have := h.spec.1
  rw [e] at this
  simp [Slice.none] at this

theorem validSlice_iff {s : Sizes} {p : Slice} (h : p ≠ Slice.none) (hn : (labels s).Nodup) :
    validSlice s p = .ok () ↔
      ∃ n, (p.dim, n) ∈ s ∧ (if p.stop < 0 then p.start + 1 else p.stop) ≤ n := by
  simp only [validSlice, h, if_false]
  constructor
  · intro hv
    cases ha : at? s p.dim with
    | error e => simp [ha] at hv
    | ok n =>
      refine ⟨n, at?_ok_mem ha, ?_⟩
      simp only [ha] at hv
      by_contra hc
      rw [if_pos (by omega)] at hv
      simp at hv
  · rintro ⟨n, hm, hle⟩
    rw [at?_of_mem hn hm]
    simp only []
    rw [if_neg (by omega)]

theorem validSlice_error {s : Sizes} {p : Slice} {e : Err} (h : validSlice s p = .error e) :
    e = .slice := by
  simp only [validSlice] at h
  split at h
  · simp at h
  split at h
  · injection h with h; exact h.symm
  · rename_i n _
    by_cases hc : (if p.stop < 0 then p.start + 1 else p.stop) > n
    · rw [if_pos hc] at h; injection h with h; exact h.symm
    · rw [if_neg hc] at h; simp at h

/-- The extent computed for a range slice counts the selected indices. -/
theorem sliceExtent_spec {b e st : Int} (hst : 0 < st) (hbe : b ≤ e) :
    0 ≤ sliceExtent b e st ∧ ∀ i, 0 ≤ i → (i < sliceExtent b e st ↔ b + i * st < e) := by
  have h0 : 0 ≤ e - b := by omega
  have hx : sliceExtent b e st = (e - b) / st + if (e - b) % st ≠ 0 then 1 else 0 := by
    simp only [sliceExtent, Int.tdiv_eq_ediv_of_nonneg h0, Int.tmod_eq_emod_of_nonneg h0]
    apply max_eq_right
    have := Int.ediv_nonneg h0 (by omega : 0 ≤ st)
    split <;> omega
  have hd := Int.ediv_mul_add_emod (e - b) st
  have hm0 := Int.emod_nonneg (e - b) (by omega : st ≠ 0)
  have hm1 := Int.emod_lt_of_pos (e - b) hst
  have hq := Int.ediv_nonneg h0 (by omega : 0 ≤ st)
  generalize (e - b) / st = q at *
  generalize (e - b) % st = r at *
  rw [hx]
  constructor
  · split <;> omega
  · intro i hi
    have : b + i * st < e ↔ i * st < q * st + r := by omega
    rw [this]
    split
    · rename_i hr
      constructor
      · intro h
        have : i * st ≤ q * st := mul_le_mul_of_nonneg_right (by omega) (by omega)
        omega
      · intro h
        by_contra hc
        have : (q + 1) * st ≤ i * st := mul_le_mul_of_nonneg_right (by omega) (by omega)
        rw [Int.add_mul] at this; omega
    · rename_i hr
      have hr : r = 0 := by omega
      subst hr
      simp only [Int.add_zero]
      exact (mul_lt_mul_iff_left₀ hst).symm

/-- Explicit result of slicing around a split. -/
theorem View.slice_range_eq {pre post : Dims} {spre spost : List Int} {d : Dim} {n x off b e st : Int}
    {ro : Bool} (hd : d ∉ labels pre) (hl : spre.length = pre.length)
    (hb : 0 ≤ b) (hbe : b ≤ e) (hst : 0 < st) (hen : e ≤ n) :
    View.slice ⟨pre ++ (d, n) :: post, spre ++ x :: spost, off, ro⟩ ⟨d, b, e, st⟩ =
      .ok ⟨pre ++ (d, sliceExtent b e st) :: post, spre ++ x * st :: spost, off + b * x, ro⟩ := by
  have hne : (⟨d, b, e, st⟩ : Slice) ≠ Slice.none := by
    intro h; injection h; simp_all
  have hv : validSlice (pre ++ (d, n) :: post) ⟨d, b, e, st⟩ = .ok () := by
    simp only [validSlice, hne, if_false, at?_mid hd]
    rw [if_neg]; split <;> omega
  have hext := (sliceExtent_spec hst hbe).1
  have hsl : Sizes.slice (pre ++ (d, n) :: post) ⟨d, b, e, st⟩ =
      .ok (pre ++ (d, sliceExtent b e st) :: post) := by
    have : (⟨d, b, e, st⟩ : Slice).isRange = true := by simp [Slice.isRange]; omega
    simp only [Sizes.slice, hv, bind, Except.bind, hne, if_false, this, if_true, resize]
    rw [if_neg (by omega), assign_mid hd]
  simp only [View.slice, hv, bind, Except.bind, hne, if_false, index_mid hd, hsl]
  rw [if_neg (by omega), getD_mid _ _ _ _ hl, modify_mid _ _ _ _ hl]

theorem View.slice_point_eq {pre post : Dims} {spre spost : List Int} {d : Dim} {n x off b st : Int}
    {ro : Bool} (hd : d ∉ labels pre) (hl : spre.length = pre.length)
    (hb : 0 ≤ b) (hen : b < n) :
    View.slice ⟨pre ++ (d, n) :: post, spre ++ x :: spost, off, ro⟩ ⟨d, b, -1, st⟩ =
      .ok ⟨pre ++ post, spre ++ spost, off + b * x, ro⟩ := by
  have hne : (⟨d, b, -1, st⟩ : Slice) ≠ Slice.none := by
    intro h; injection h; simp_all
  have hv : validSlice (pre ++ (d, n) :: post) ⟨d, b, -1, st⟩ = .ok () := by
    simp only [validSlice, hne, if_false, at?_mid hd]
    rw [if_neg]; simp; omega
  simp only [View.slice, hv, bind, Except.bind, hne, if_false, index_mid hd, erase_mid hd, if_true]
  rw [getD_mid _ _ _ _ hl, eraseIdx_mid _ _ _ _ hl]

/-- Decompose a view at a label. -/
theorem View.split {v : View} {d : Dim} (hl : v.strides.length = v.dims.length)
    (hd : d ∈ labels v.dims) : ∃ pre n post spre x spost,
      v = ⟨pre ++ (d, n) :: post, spre ++ x :: spost, v.offset, v.readonly⟩ ∧ d ∉ labels pre ∧
      spre.length = pre.length ∧ spost.length = post.length := by
  obtain ⟨pre, n, post, he, hn⟩ := split_label hd
  obtain ⟨spre, x, spost, hs, h1, h2⟩ := split_strides (he ▸ hl)
  exact ⟨pre, n, post, spre, x, spost, by cases v; simp_all, hn, h1, h2⟩

theorem View.slice_ok_valid {v v' : View} {p : Slice} (h : v.slice p = .ok v') :
    validSlice v.dims p = .ok () := by
  simp only [View.slice, bind, Except.bind] at h
  split at h
  · simp at h
  · assumption

end Scipp
