import Verif.Model.Midpoints
import Verif.Props.View
import Verif.Lemmas.SizedDict
import Verif.Lemmas.Transform
import Verif.Lemmas.Masks
import Mathlib.Algebra.Order.Field.Basic
import Mathlib.Tactic.Linarith
import Mathlib.Tactic.Ring
import Mathlib.Tactic.SplitIfs
/-
**C73**: midpoints.
-/
namespace Scipp.Props
open Midpoints Sizes

/-- An integer of a signed type of `w` bits. -/
def Representable (w : Nat) (x : Int) : Prop := -2 ^ (w - 1) ≤ x ∧ x < 2 ^ (w - 1)

/-- **C73** (integers): the midpoint of any two integers of the type, however far apart, is computed without overflow. It lies
between them, it is within one half of the mean, and if the mean is not an integer it is the neighbour closer to the first argument. -/
theorem C73_int (w : Nat) (hw : 1 ≤ w) (a b : Int) (ha : Representable w a) (hb : Representable w b) :
    ∃ m, midpointInt w a b = .ok m ∧ min a b ≤ m ∧ m ≤ max a b ∧ (2 * m - (a + b)).natAbs ≤ 1 ∧ (m - a).natAbs ≤ (b - m).natAbs := by
  obtain ⟨k, rfl⟩ : ∃ k, w = k + 1 := ⟨w - 1, by omega⟩
  simp only [Representable, Nat.add_sub_cancel] at ha hb
  have hpow : (2 : Int) ^ (k + 1) = 2 * 2 ^ k := by rw [Int.pow_succ]; omega
  have hlow : lowest (k + 1) = -2 ^ k := by simp [lowest]
  generalize hP : (2 : Int) ^ k = P at *
  have key : ∀ lo hi : Int, -P ≤ lo → lo ≤ hi → hi < P →
      toSigned (k + 1) (unsigned (k + 1) (unsigned (k + 1) hi - unsigned (k + 1) lo) / 2) = (hi - lo) / 2 := by
    intro lo hi h1 h2 h3
    have hu : unsigned (k + 1) (unsigned (k + 1) hi - unsigned (k + 1) lo) = hi - lo := by
      simp only [unsigned]
      rw [← Int.sub_emod, Int.emod_eq_of_lt (by omega) (by rw [hpow]; omega)]
    rw [hu]
    simp only [toSigned, hlow]
    rw [if_pos (by omega)]
  have fits : ∀ x : Int, -P ≤ x → x < P → signed (k + 1) x = .ok x := by
    intro x h1 h2
    simp only [signed, hlow]
    rw [if_pos (by omega)]
  by_cases hab : a > b
  · refine ⟨a - (a - b) / 2, ?_, ?_, ?_, ?_, ?_⟩
    · simp only [midpointInt, hab, if_true]
      rw [key b a (by omega) (by omega) (by omega), fits _ (by omega) (by omega)]
      simp only []
      rw [fits _ (by omega) (by omega)]
      congr 1; omega
    all_goals omega
  · refine ⟨a + (b - a) / 2, ?_, ?_, ?_, ?_, ?_⟩
    · simp only [midpointInt, hab, if_false]
      rw [key a b (by omega) (by omega) (by omega), fits _ (by omega) (by omega)]
      simp only []
      rw [fits _ (by omega) (by omega)]
      congr 1; omega
    all_goals omega

/-- The extreme case of 32 bits: the sum, and the difference, of the arguments do not fit. -/
example : Representable 32 (-2147483648) ∧ Representable 32 2147483647 ∧
    midpointInt 32 (-2147483648) 2147483647 = .ok (-1) ∧ midpointInt 32 2147483647 (-2147483648) = .ok 0 := by
  refine ⟨?_, ?_, ?_, ?_⟩ <;> first | decide +kernel | (simp only [Representable]; decide +kernel)

/-- **C73** (order of the arguments): exchanging the two integers gives the same midpoint exactly if their mean is an integer. -/
theorem C73_int_swapped_iff (w : Nat) (hw : 1 ≤ w) (a b : Int) (ha : Representable w a) (hb : Representable w b) :
    midpointInt w a b = midpointInt w b a ↔ (a + b) % 2 = 0 := by
  obtain ⟨m, h1, h2, h3, h4, h5⟩ := C73_int w hw a b ha hb
  obtain ⟨m', g1, g2, g3, g4, g5⟩ := C73_int w hw b a hb ha
  rw [h1, g1]
  constructor
  · intro h
    injection h with h
    omega
  · intro h
    congr 1
    omega

example : midpointInt 64 1 2 = .ok 1 ∧ midpointInt 64 2 1 = .ok 2 := by decide +kernel

/-- **C73** (floating point, without rounding): for any two finite numbers no intermediate value is infinite, and the result is their mean to
within the smallest normal number. It is the mean exactly if both are at most half of the largest number, or neither is tiny. -/
theorem C73_float (tiny huge a b : Rat) (ht : 0 < tiny) (hth : 4 * tiny ≤ huge) (ha : |a| ≤ huge) (hb : |b| ≤ huge) :
    ∃ m, midpointFloat tiny huge a b = .ok m ∧ |m - (a + b) / 2| ≤ tiny ∧
      (|a| ≤ huge / 2 ∧ |b| ≤ huge / 2 ∨ 2 * tiny ≤ |a| ∧ 2 * tiny ≤ |b| → m = (a + b) / 2) := by
  have fin : ∀ x : Rat, |x| ≤ huge → finite huge x = .ok x := fun x hx => by simp [finite, hx]
  have same : |(a + b) / 2 - (a + b) / 2| ≤ tiny := by rw [sub_self, abs_zero]; exact ht.le
  obtain ⟨ha1, ha2⟩ := abs_le.1 ha
  obtain ⟨hb1, hb2⟩ := abs_le.1 hb
  simp only [midpointFloat]
  by_cases h1 : |a| ≤ huge / 2 ∧ |b| ≤ huge / 2
  · obtain ⟨p1, p2⟩ := abs_le.1 h1.1
    obtain ⟨q1, q2⟩ := abs_le.1 h1.2
    refine ⟨(a + b) / 2, ?_, same, fun _ => rfl⟩
    rw [if_pos h1, fin _ (abs_le.2 ⟨by linarith, by linarith⟩)]
    simp only []
    rw [fin _ (abs_le.2 ⟨by linarith, by linarith⟩)]
  · rw [if_neg h1]
    by_cases h2 : |a| < tiny * 2
    · obtain ⟨p1, p2⟩ := abs_lt.1 h2
      rw [if_pos h2]
      refine ⟨a + b / 2, fin _ (abs_le.2 ⟨by linarith, by linarith⟩), abs_le.2 ⟨by linarith, by linarith⟩, ?_⟩
      rintro (h | h)
      · exact absurd h h1
      · linarith [h.1]
    · rw [if_neg h2]
      by_cases h3 : |b| < tiny * 2
      · obtain ⟨p1, p2⟩ := abs_lt.1 h3
        rw [if_pos h3]
        refine ⟨a / 2 + b, fin _ (abs_le.2 ⟨by linarith, by linarith⟩), abs_le.2 ⟨by linarith, by linarith⟩, ?_⟩
        rintro (h | h)
        · exact absurd h h1
        · linarith [h.2]
      · refine ⟨(a + b) / 2, ?_, same, fun _ => rfl⟩
        rw [if_neg h3, fin _ (abs_le.2 ⟨by linarith, by linarith⟩)]
        congr 1
        ring

/-- A small number type with largest value 100 and smallest normal 1/8: all four branches. -/
example : midpointFloat (1 / 8) 100 3 4 = .ok (7 / 2) ∧ midpointFloat (1 / 8) 100 100 90 = .ok 95 ∧
    midpointFloat (1 / 8) 100 (1 / 16) 90 = .ok (45 + 1 / 16) ∧ midpointFloat (1 / 8) 100 90 0 = .ok 45 := by
  refine ⟨?_, ?_, ?_, ?_⟩ <;> simp [midpointFloat, finite] <;> decide +kernel

private theorem slice_one {v : View} (hw : v.WF) {d : Dim} {n b e : Int} (hd : (d, n) ∈ v.dims) (hb : 0 ≤ b) (hbe : b ≤ e) (he : e ≤ n) :
    ∃ v', v.slice ⟨d, b, e, 1⟩ = .ok v' ∧ v'.dims = v.dims.map (fun p => if p.1 = d then (d, e - b) else p) ∧
      v'.WF ∧ ∀ c, v'.addr c = v.addr (upd c d (b + c d)) := by
  have hp : Slice.Constructed ⟨d, b, e, 1⟩ := by
    left
    simp only [Slice.range]
    rw [if_neg (by omega), if_neg (by omega), if_neg (by omega), if_neg (by omega)]
  obtain ⟨v', hv'⟩ := (C04_slice_accepts_iff v _ hw hp).1.2 ⟨n, hd, by simp only []; split <;> omega⟩
  have hs := C04_range_slice v v' d b e 1 hw hp (by omega) hv'
  refine ⟨v', hv', ?_, View.slice_wf hw hp hv', fun c => by rw [hs.2.2.2.1 c]; simp⟩
  obtain ⟨pre, n', post, spre, x, spost, hv, h1, h2, h3⟩ := View.split hw.2.1 (mem_labels hd)
  have hnd : (labels (pre ++ (d, n') :: post)).Nodup := by have := hw.1.1; rw [hv] at this; exact this
  have hn' : n' = n := by
    have q1 := at?_of_mem hw.1.1 hd
    have q2 := at?_of_mem hnd (x := n') (d := d) (by simp)
    rw [hv] at q1
    simp only at q1
    rw [q1] at q2
    injection q2 with q2
    exact q2.symm
  subst hn'
  have := View.slice_range_eq (spost := spost) (x := x) (off := v.offset) (ro := v.readonly) (post := post) h1 h2 hb hbe (by omega : (0 : Int) < 1) he
  rw [← hv, hv'] at this
  injection this with this
  rw [this]
  have hdims : v.dims = pre ++ (d, n') :: post := by rw [hv]
  rw [hdims]
  simp only [List.map_append, List.map_cons, if_true, sliceExtent_one hbe]
  have hd2 : d ∉ labels post := by
    simp only [labels_append, labels_cons] at hnd
    intro hc
    exact (List.nodup_cons.1 (List.nodup_append.1 hnd).2.1).1 hc
  have hid : ∀ l : Dims, d ∉ labels l → l.map (fun p => if p.1 = d then (d, e - b) else p) = l := by
    intro l hl
    conv_rhs => rw [← List.map_id l]
    apply List.map_congr_left
    intro p hpm
    rw [if_neg, id]
    intro hc
    exact hl (hc ▸ mem_labels hpm)
  rw [hid _ h1, hid _ hd2]

/-- The dims of the result: `d` one shorter. -/
def shortened (dims : Dims) (d : Dim) : Dims := dims.map fun p => if p.1 = d then (d, p.2 - 1) else p

/-- **C73** (result): along a dimension of two or more elements the midpoints of every variable without variances exist. The dimension is one
shorter, the others are unchanged, and the element at `c` is the midpoint of the element at `c` and its successor. -/
theorem C73_midpoints {V : Type} (f : V → V → Except Err V) (x : Var V) (d : Dim) (n : Int) (hw : x.view.WF)
    (hv : Dim.invalid ∉ labels x.view.dims) (hd : (d, n) ∈ x.view.dims) (hn : 2 ≤ n) :
    ∃ r, midpoints f false x (some d) = .ok r ∧ r.dims = shortened x.view.dims d ∧
      ∀ c, r.val c = f (x.elem c) (x.elem (upd c d (c d + 1))) := by
  obtain ⟨v1, h1, d1, w1, a1⟩ := slice_one hw hd (le_refl (0 : Int)) (by omega) (by omega : n - 1 ≤ n)
  obtain ⟨v2, h2, d2, w2, a2⟩ := slice_one hw hd (by omega : (0 : Int) ≤ 1) (by omega) (le_refl n)
  have hne : x.view.dims.length ≠ 0 := by
    intro h
    rw [List.length_eq_zero_iff.1 h] at hd
    simp at hd
  have hdims : v1.dims = shortened x.view.dims d := by
    rw [d1, shortened]
    apply List.map_congr_left
    intro p hp
    by_cases hpd : p.1 = d
    · rw [if_pos hpd, if_pos hpd]
      have q1 := at?_of_mem hw.1.1 hd
      have q2 := at?_of_mem hw.1.1 (show (d, p.2) ∈ x.view.dims by rw [← hpd]; exact hp)
      rw [q1] at q2
      injection q2 with q2
      rw [q2]; simp
    · rw [if_neg hpd, if_neg hpd]
  have h12 : v2.dims = v1.dims := by rw [d1, d2]; simp
  have hlab : labels v1.dims = labels x.view.dims := by
    rw [hdims]
    simp only [shortened, labels, List.map_map]
    apply List.map_congr_left
    intro p _
    simp only [Function.comp]
    split
    · rename_i h; exact h.symm
    · rfl
  have r1 : Slice.range d 0 (n - 1) = .ok ⟨d, 0, n - 1, 1⟩ := by
    simp only [Slice.range]
    rw [if_neg (by omega), if_neg (by omega), if_neg (by omega), if_neg (by omega)]
  have r2 : Slice.range d 1 n = .ok ⟨d, 1, n, 1⟩ := by
    simp only [Slice.range]
    rw [if_neg (by omega), if_neg (by omega), if_neg (by omega), if_neg (by omega)]
  have hm : Dims.merge v1.dims v2.dims = .ok v1.dims := by
    rw [h12]
    exact merge_of_includes w1.1 w1.1 (by rw [hlab]; exact hv) (fun p hp => hp)
  refine ⟨⟨v1.dims, fun c => f (x.buf (v1.addr c)) (x.buf (v2.addr c))⟩, ?_, hdims, ?_⟩
  · simp only [midpoints, pickDim, hne, if_false, at?_of_mem hw.1.1 hd, combine, sliced, r1, r2, h1, h2, Bool.false_eq_true, Arr.zip,
      Arr.ofVar, hm]
    rw [if_neg (by omega)]
    rfl
  · intro c
    simp only [a1, a2, Var.elem]
    have : upd c d (0 + c d) = c := by funext e; simp only [upd]; split <;> simp_all
    rw [this]
    rw [show 1 + c d = c d + 1 by omega]

/-- Midpoints of the integers 10, 13, 15, 15 stored with stride 2. -/
example : ∃ r, midpoints (midpointInt 64) false (⟨⟨[(1, 4)], [2], 0, false⟩, fun i => if i = 0 then 10 else if i = 2 then 13 else 15⟩ : Var Int) (some 1) = .ok r ∧
    r.dims = [(1, 3)] ∧ (List.range 3).map (fun i : Nat => r.val fun _ => i) = [.ok 11, .ok 14, .ok 15] := by
  refine ⟨_, rfl, rfl, by decide +kernel⟩

/-- **C73** (refused): what is not covered by `C73_midpoints` is an error: variables without dims, a dimension that is missing or not given
where there are several, of length zero or one, and variances. -/
theorem C73_refused {V : Type} (f : V → V → Except Err V) (x : Var V) (variances : Bool) (dim : Option Dim) (hw : x.view.WF)
    (r : Arr (Except Err V)) (h : midpoints f variances x dim = .ok r) :
    variances = false ∧ ∃ d n, (d, n) ∈ x.view.dims ∧ 2 ≤ n ∧ (dim = some d ∨ dim = none ∧ x.view.dims = [(d, n)]) := by
  unfold midpoints at h
  split at h
  · cases h
  rename_i d hd
  split at h
  · cases h
  rename_i len hl
  split at h
  · cases h
  rename_i h1
  have hmem := at?_ok_mem hl
  unfold combine at h
  split at h
  · cases h
  rename_i a ha
  split at h
  · cases h
  rename_i b hb
  split at h
  · cases h
  rename_i hvar
  have h0 : 0 ≤ len := hw.1.2 _ hmem
  refine ⟨by simpa using hvar, d, len, hmem, ?_, ?_⟩
  · by_contra hc
    have : len = 0 := by omega
    subst this
    simp [sliced, Slice.range] at hb
  · unfold pickDim at hd
    split at hd
    · cases hd
    split at hd
    · injection hd with hd; exact .inl (by rw [hd])
    · split at hd
      · rename_i hx
        injection hd with hd
        subst hd
        rw [hx] at hmem ⊢
        simp only [List.mem_singleton] at hmem
        right
        exact ⟨rfl, by rw [hmem]⟩
      · cases hd

/-- The errors: no dims; dimension to be chosen; missing; a single element; no elements. -/
example :
    midpoints (midpointInt 64) false (⟨⟨[], [], 0, false⟩, fun _ => 0⟩ : Var Int) none = .error .dimension ∧
    midpoints (midpointInt 64) false (⟨⟨[(1, 2), (2, 2)], [2, 1], 0, false⟩, fun _ => 0⟩ : Var Int) none = .error .invalidArgument ∧
    midpoints (midpointInt 64) false (⟨⟨[(1, 2), (2, 2)], [2, 1], 0, false⟩, fun _ => 0⟩ : Var Int) (some 3) = .error .dimension ∧
    midpoints (midpointInt 64) false (⟨⟨[(1, 1)], [1], 0, false⟩, fun _ => 0⟩ : Var Int) none = .error .dimension ∧
    midpoints (midpointInt 64) false (⟨⟨[(1, 0)], [1], 0, false⟩, fun _ => 0⟩ : Var Int) none = .error .slice ∧
    midpoints (midpointInt 64) true (⟨⟨[(1, 2)], [1], 0, false⟩, fun _ => 0⟩ : Var Int) none = .error .variances :=
  ⟨rfl, rfl, rfl, rfl, rfl, rfl⟩

/-- **C73** (dimension left out): for a variable of one dimension it need not be named. -/
theorem C73_dim_deduced {V : Type} (f : V → V → Except Err V) (variances : Bool) (x : Var V) (d : Dim) (n : Int) (h : x.view.dims = [(d, n)]) :
    midpoints f variances x none = midpoints f variances x (some d) := by
  simp [midpoints, pickDim, h]

example : midpoints (midpointInt 64) false (⟨⟨[(1, 2)], [1], 0, false⟩, fun i => 3 * i⟩ : Var Int) none =
    midpoints (midpointInt 64) false (⟨⟨[(1, 2)], [1], 0, false⟩, fun i => 3 * i⟩ : Var Int) (some 1) := rfl

/-- **C73** (sorted): the midpoints of a variable of integers in ascending order along `d` exist, separate the elements they are computed from
and are in ascending order. -/
theorem C73_sorted (w : Nat) (hwd : 1 ≤ w) (x : Var Int) (d : Dim) (n : Int) (hw : x.view.WF)
    (hv : Dim.invalid ∉ labels x.view.dims) (hd : (d, n) ∈ x.view.dims) (hn : 2 ≤ n)
    (hr : ∀ c, InDims x.view.dims c → Representable w (x.elem c))
    (hs : ∀ c, InDims x.view.dims c → c d + 1 < n → x.elem c ≤ x.elem (upd c d (c d + 1))) :
    ∃ r : Arr (Except Err Int), midpoints (midpointInt w) false x (some d) = .ok r ∧ ∀ c, InDims x.view.dims c → c d + 1 < n →
      ∃ m, r.val c = .ok m ∧ x.elem c ≤ m ∧ m ≤ x.elem (upd c d (c d + 1)) ∧
        (c d + 2 < n → ∃ m', r.val (upd c d (c d + 1)) = .ok m' ∧ m ≤ m') := by
  obtain ⟨r, h1, h2, h3⟩ := C73_midpoints (midpointInt w) x d n hw hv hd hn
  have next : ∀ c, InDims x.view.dims c → c d + 1 < n → InDims x.view.dims (upd c d (c d + 1)) := by
    intro c hc hlt e k hk
    have := hc e k hk
    simp only [upd]
    split
    · rename_i he
      subst he
      have q1 := at?_of_mem hw.1.1 hd
      have q2 := at?_of_mem hw.1.1 hk
      rw [q1] at q2
      injection q2 with q2
      omega
    · exact this
  have one : ∀ c, InDims x.view.dims c → c d + 1 < n → ∃ m, r.val c = .ok m ∧ x.elem c ≤ m ∧ m ≤ x.elem (upd c d (c d + 1)) := by
    intro c hc hlt
    obtain ⟨m, g1, g2, g3, -, -⟩ := C73_int w hwd _ _ (hr c hc) (hr _ (next c hc hlt))
    have := hs c hc hlt
    exact ⟨m, by rw [h3 c, g1], by rw [min_eq_left this] at g2; exact g2, by rw [max_eq_right this] at g3; exact g3⟩
  refine ⟨r, h1, fun c hc hlt => ?_⟩
  obtain ⟨m, g1, g2, g3⟩ := one c hc hlt
  refine ⟨m, g1, g2, g3, fun h2 => ?_⟩
  obtain ⟨m', k1, k2, k3⟩ := one _ (next c hc hlt) (by simp only [upd, if_true]; omega)
  exact ⟨m', k1, le_trans g3 k2⟩

/-- The hypotheses hold for 10, 13, 15, 15. -/
example : ∃ x : Var Int, x.view.WF ∧ Dim.invalid ∉ labels x.view.dims ∧ (1, 4) ∈ x.view.dims ∧
    (∀ c, InDims x.view.dims c → Representable 64 (x.elem c)) ∧
    (∀ c, InDims x.view.dims c → c 1 + 1 < 4 → x.elem c ≤ x.elem (upd c 1 (c 1 + 1))) := by
  refine ⟨⟨⟨[(1, 4)], [1], 0, false⟩, fun i => if i ≤ 0 then 10 else if i = 1 then 13 else 15⟩, by simp [View.WF, Sizes.WF, labels], by decide, by simp, ?_, ?_⟩
  · intro c _
    simp only [Var.elem, Representable]
    split
    · omega
    · split <;> omega
  · intro c _ _
    simp only [Var.elem, View.addr, addrAux, upd, if_true]
    split_ifs <;> omega

end Scipp.Props
