/-
Lemmas about the calendar and about printed numbers.
-/
import Verif.Spec.Calendar
import Mathlib.Data.Nat.Digits.Lemmas
import Mathlib.Tactic.Ring
import Mathlib.Tactic.IntervalCases

namespace Scipp.TimeString

theorem yearLength_eq (y : Int) : yearLength y = if leap y then 366 else 365 := by
  unfold yearLength monthLengths
  split <;> rfl

theorem daysBefore_succ (y : Int) : daysBefore (y + 1) = daysBefore y + yearLength y := by
  rw [yearLength_eq]
  unfold daysBefore leap
  by_cases h4 : y % 4 = 0 <;> by_cases h100 : y % 100 = 0 <;> by_cases h400 : y % 400 = 0 <;>
    simp [h4, h100, h400] <;> omega

theorem daysBefore_mono {y z : Int} (h : y + 1 ≤ z) : daysBefore y + yearLength y ≤ daysBefore z := by
  rw [← daysBefore_succ]
  unfold daysBefore
  omega

/-- The year containing day `n` (counted from 1 January of year 1). -/
def yearOf (n : Int) : Int :=
  let y := n * 400 / 146097 + 1
  if daysBefore (y + 1) ≤ n then y + 1 else if n < daysBefore y then y - 1 else y

theorem yearOf_spec (n : Int) :
    daysBefore (yearOf n) ≤ n ∧ n < daysBefore (yearOf n + 1) := by
  unfold yearOf
  simp only
  generalize hy : n * 400 / 146097 + 1 = y
  split
  · refine ⟨by assumption, ?_⟩
    unfold daysBefore
    omega
  · split
    · refine ⟨?_, ?_⟩
      · unfold daysBefore
        omega
      · rwa [show y - 1 + 1 = y by omega]
    · omega

/-- The month (counted from `m`) and the day in it (from 0) of day `d`. -/
def monthOf (m : Nat) : List Nat → Nat → Nat × Nat
  | [], d => (m, d)
  | l :: ls, d => if d < l then (m, d) else monthOf (m + 1) ls (d - l)

theorem monthOf_spec (ls : List Nat) : ∀ (m d : Nat), d < ls.sum →
    m ≤ (monthOf m ls d).1 ∧
    (ls.take ((monthOf m ls d).1 - m)).sum + (monthOf m ls d).2 = d ∧
    ∃ len, ls[(monthOf m ls d).1 - m]? = some len ∧ (monthOf m ls d).2 < len := by
  induction ls with
  | nil => intro m d h; simp at h
  | cons l ls ih =>
    intro m d h
    unfold monthOf
    split
    · next hd => simp [hd]
    · next hd =>
      have h' : d - l < ls.sum := by simp at h; omega
      obtain ⟨h1, h2, len, h3, h4⟩ := ih (m + 1) (d - l) h'
      have e : (monthOf (m + 1) ls (d - l)).1 - m =
          ((monthOf (m + 1) ls (d - l)).1 - (m + 1)) + 1 := by omega
      refine ⟨by omega, ?_, len, ?_, h4⟩
      · rw [e, List.take_succ_cons, List.sum_cons]
        omega
      · rw [e]; simpa using h3

/-- A `gmtime`. -/
def gmtimeRef (t : Int) : Civil :=
  let n := t / 86400 + daysBefore 1970
  let y := yearOf n
  let md := monthOf 1 (monthLengths y) (n - daysBefore y).toNat
  let s := (t % 86400).toNat
  ⟨y, md.1, md.2 + 1, s / 3600, s / 60 % 60, s % 60⟩

theorem gmtimeRef_spec : IsGmtime gmtimeRef := by
  intro t
  obtain ⟨h1, h2⟩ := yearOf_spec (t / 86400 + daysBefore 1970)
  rw [daysBefore_succ] at h2
  have hs := monthOf_spec (monthLengths (yearOf (t / 86400 + daysBefore 1970))) 1
    (t / 86400 + daysBefore 1970 - daysBefore (yearOf (t / 86400 + daysBefore 1970))).toNat
    (by unfold yearLength at h2; omega)
  obtain ⟨m1, m2, len, m3, m4⟩ := hs
  refine ⟨⟨⟨len, m3, ?_⟩, m1, ?_, ?_, ?_, ?_⟩, ?_⟩
  · simp only [gmtimeRef]; omega
  · simp only [gmtimeRef]; omega
  · simp only [gmtimeRef]; omega
  · simp only [gmtimeRef]; omega
  · simp only [gmtimeRef]; omega
  · simp only [Civil.seconds, gmtimeRef]
    push_cast
    have m2' : (((monthLengths (yearOf (t / 86400 + daysBefore 1970))).take
        ((monthOf 1 (monthLengths (yearOf (t / 86400 + daysBefore 1970)))
          (t / 86400 + daysBefore 1970 - daysBefore (yearOf (t / 86400 + daysBefore 1970))).toNat).1 - 1)).sum : Int) +
        ((monthOf 1 (monthLengths (yearOf (t / 86400 + daysBefore 1970)))
          (t / 86400 + daysBefore 1970 - daysBefore (yearOf (t / 86400 + daysBefore 1970))).toNat).2 : Int) =
        t / 86400 + daysBefore 1970 - daysBefore (yearOf (t / 86400 + daysBefore 1970)) := by
      rw [← Nat.cast_add, m2]; omega
    push_cast at m2'
    omega

theorem take_sum_lt (ls : List Nat) : ∀ {i j len : Nat}, ls[i]? = some len → i < j →
    (ls.take i).sum + len ≤ (ls.take j).sum := by
  induction ls with
  | nil => intro i j len h; simp at h
  | cons l ls ih =>
    intro i j len h hij
    obtain ⟨j, rfl⟩ : ∃ k, j = k + 1 := ⟨j - 1, by omega⟩
    cases i with
    | zero => simp at h; simp [h]
    | succ i =>
      have := ih (i := i) (j := j) (by simpa using h) (by omega)
      simp; omega

theorem take_sum_le (ls : List Nat) (i : Nat) : (ls.take i).sum ≤ ls.sum := by
  have h := congrArg List.sum (List.take_append_drop i ls)
  rw [List.sum_append] at h
  omega

/-- Different dates and times are different instants. -/
theorem seconds_inj {a b : Civil} (ha : a.Valid) (hb : b.Valid)
    (h : a.seconds = b.seconds) : a = b := by
  obtain ⟨⟨la, a1, a2⟩, a3, a4, a5, a6, a7⟩ := ha
  obtain ⟨⟨lb, b1, b2⟩, b3, b4, b5, b6, b7⟩ := hb
  have key : ∀ (x : Civil) (l : Nat), (monthLengths x.year)[x.month - 1]? = some l → x.day ≤ l →
      ((monthLengths x.year).take (x.month - 1)).sum + x.day ≤ yearLength x.year := by
    intro x l h1 h2
    have := take_sum_lt (monthLengths x.year) (j := 13) h1 (by
      have := (List.getElem?_eq_some_iff.1 h1).1
      simp [monthLengths] at this; omega)
    have := take_sum_le (monthLengths x.year) 13
    unfold yearLength; omega
  have ka := key a la a1 a2
  have kb := key b lb b1 b2
  unfold Civil.seconds at h
  have hday : daysBefore a.year + ((monthLengths a.year).take (a.month - 1)).sum + a.day =
      daysBefore b.year + ((monthLengths b.year).take (b.month - 1)).sum + b.day := by
    omega
  have hy : a.year = b.year := by
    by_contra hne
    rcases Int.lt_or_gt_of_ne hne with hlt | hlt
    · have := daysBefore_mono (y := a.year) (z := b.year) (by omega)
      omega
    · have := daysBefore_mono (y := b.year) (z := a.year) (by omega)
      omega
  rw [hy] at hday a1
  have hm : a.month = b.month := by
    by_contra hne
    rcases Nat.lt_or_gt_of_ne hne with hlt | hlt
    · have := take_sum_lt _ a1 (j := b.month - 1) (by omega)
      omega
    · have := take_sum_lt _ b1 (j := a.month - 1) (by omega)
      omega
  rw [hm] at hday
  have hd : a.day = b.day := by omega
  rw [hy, hm, hd] at h
  have hh : a.hour = b.hour := by omega
  have hmin : a.minute = b.minute := by omega
  have hsec : a.second = b.second := by omega
  cases a; cases b; simp_all

/-! ### Printed numbers -/

theorem digit?_digitChar {d : Nat} (h : d < 10) : digit? (digitChar d) = some d := by
  interval_cases d <;> rfl

theorem readFrom_digits (ds : List Nat) : ∀ acc, (∀ d ∈ ds, d < 10) →
    readFrom acc (ds.map digitChar) = some (ds.foldl (fun a d => a * 10 + d) acc) := by
  induction ds with
  | nil => intro acc _; rfl
  | cons d ds ih =>
    intro acc h
    simp only [List.map_cons, readFrom, digit?_digitChar (h d (by simp)), List.foldl_cons]
    exact ih _ fun e he => h e (by simp [he])

theorem foldl_digits (ds : List Nat) :
    ds.reverse.foldl (fun a d => a * 10 + d) 0 = Nat.ofDigits 10 ds := by
  rw [List.foldl_reverse]
  induction ds with
  | nil => rfl
  | cons d ds ih => rw [List.foldr_cons, ih, Nat.ofDigits_cons]; ring

theorem readFrom_natText (n : Nat) : readFrom 0 (natText n) = some n := by
  unfold natText
  split
  · next h => subst h; rfl
  · rw [readFrom_digits _ _ (fun d hd => Nat.digits_lt_base (by decide) (List.mem_reverse.1 hd)),
      foldl_digits, Nat.ofDigits_digits]

theorem natText_length {n w : Nat} (hw : 0 < w) (h : n < 10 ^ w) : (natText n).length ≤ w := by
  unfold natText
  split
  · show 1 ≤ w; omega
  · simpa using (Nat.digits_length_le_iff (by decide) n).2 h

theorem readFrom_zeros (k : Nat) (cs : List Char) :
    readFrom 0 (List.replicate k '0' ++ cs) = readFrom 0 cs := by
  induction k with
  | zero => rfl
  | succ k ih =>
    rw [List.replicate_succ, List.cons_append, readFrom]
    exact ih

theorem setw_natText {n w : Nat} (hw : 0 < w) (h : n < 10 ^ w) :
    readFrom 0 (setw w (natText n)) = some n ∧ (setw w (natText n)).length = w := by
  refine ⟨?_, ?_⟩
  · unfold setw
    rw [readFrom_zeros, readFrom_natText]
  · have := natText_length hw h
    simp [setw]; omega

theorem readFrom_lt (cs : List Char) : ∀ acc n, readFrom acc cs = some n →
    n < (acc + 1) * 10 ^ cs.length := by
  induction cs with
  | nil => intro acc n h; simp [readFrom] at h; simp [h]
  | cons c cs ih =>
    intro acc n h
    unfold readFrom at h
    split at h
    · next d hd =>
      have hlt : d < 10 := by
        unfold digit? at hd
        split at hd
        · next hc =>
          injection hd with hd
          have h9 : c.toNat ≤ '9'.toNat := hc.2
          have : '9'.toNat = 57 := rfl
          have : '0'.toNat = 48 := rfl
          omega
        · simp at hd
      have := ih _ _ h
      have h2 : (acc * 10 + d + 1) * 10 ^ cs.length ≤ ((acc + 1) * 10) * 10 ^ cs.length :=
        Nat.mul_le_mul_right _ (by omega)
      calc n < _ := this
        _ ≤ _ := h2
        _ = _ := by rw [List.length_cons]; ring
    · simp at h

theorem readFrom_minus (cs : List Char) : ∀ acc, '-' ∈ cs → readFrom acc cs = none := by
  induction cs with
  | nil => intro acc h; simp at h
  | cons c cs ih =>
    intro acc h
    unfold readFrom
    split
    · next d hd =>
      rcases List.mem_cons.1 h with h | h
      · subst h; rw [show digit? '-' = none by decide] at hd; simp at hd
      · exact ih _ h
    · rfl

end Scipp.TimeString
