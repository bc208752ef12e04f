import Verif.Spec.GroupBy
import Verif.Lemmas.BinIndex
import Mathlib.Data.List.Pairwise
import Mathlib.Data.List.Perm.Basic
/-!
Lemmas about the groups made by `groupby`.
-/
namespace Scipp.GroupBy
variable {α : Type} [LinearOrder α]

/-- Positions, counted from `i`, of the elements satisfying `p`. -/
def posFrom {β : Type} (p : β → Bool) : Int → List β → List Int
  | _, [] => []
  | i, v :: vs => (if p v then [i] else []) ++ posFrom p (i + 1) vs

theorem posFrom_eq {β : Type} (p : β → Bool) : ∀ (l : List β) (i : Nat),
    posFrom p (i : Int) l = ((List.range l.length).filter (fun k => (l[k]?).any p)).map (fun k : Nat => ((i + k : Nat) : Int))
  | [], i => rfl
  | v :: vs, i => by
    have ih := posFrom_eq p vs (i + 1)
    simp only [posFrom]
    rw [show ((i : Int) + 1) = ((i + 1 : Nat) : Int) by push_cast; rfl, ih, List.length_cons, List.range_succ_eq_map, List.filter_cons,
      List.filter_map]
    by_cases hv : p v = true
    · simp [hv, Function.comp_def, List.map_map]
      intro a _ _; omega
    · simp [hv, Function.comp_def, List.map_map]
      intro a _ _; omega

theorem intRange_concat {b i : Int} (h : b ≤ i) : intRange b i ++ [i] = intRange b (i + 1) := by
  unfold intRange
  have : (i + 1 - b).toNat = (i - b).toNat + 1 := by omega
  rw [this, List.range_succ, List.map_append]
  refine congrArg₂ _ rfl ?_
  simp only [List.map_cons, List.map_nil, List.cons.injEq, and_true]
  omega

theorem positions_nil : positions [] = [] := rfl
theorem positions_cons (r : Int × Int) (l : List (Int × Int)) : positions (r :: l) = intRange r.1 r.2 ++ positions l := rfl
theorem positions_append (a b : List (Int × Int)) : positions (a ++ b) = positions a ++ positions b := by simp [positions]

theorem intRange_self (i : Int) : intRange i i = [] := by simp [intRange]
theorem intRange_one (i : Int) : intRange i (i + 1) = [i] := by rw [← intRange_concat (le_refl i), intRange_self]; rfl

/-! ### equality of keys -/

theorem keyEq_refl (a : Key α) : keyEq a a = true := by cases a <;> simp [keyEq]
theorem keyEq_symm {a b : Key α} (h : keyEq a b = true) : keyEq b a = true := by
  cases a <;> cases b <;> simp_all [keyEq]
theorem keyEq_trans {a b c : Key α} (h : keyEq a b = true) (h' : keyEq b c = true) : keyEq a c = true := by
  cases a <;> cases b <;> cases c <;> simp_all [keyEq]
theorem keyEq_comm (a b : Key α) : keyEq a b = keyEq b a := by
  cases h : keyEq a b with
  | true => exact (keyEq_symm h).symm
  | false =>
    cases h' : keyEq b a with
    | true => rw [keyEq_symm h'] at h; cases h
    | false => rfl
theorem keyEq_congr {a b : Key α} (h : keyEq a b = true) (c : Key α) : keyEq c a = keyEq c b := by
  cases hc : keyEq c a with
  | true => exact (keyEq_trans hc h).symm
  | false =>
    cases hb : keyEq c b with
    | true => rw [keyEq_trans hb (keyEq_symm h)] at hc; cases hc
    | false => rfl

theorem keyEq_iff (a b : Key α) : keyEq a b = true ↔ Same a b := by
  cases a <;> cases b <;> simp [keyEq, Same]

theorem keyLess_iff (a b : Key α) : keyLess a b = true ↔ Before a b := by
  cases a <;> cases b <;> simp [keyLess, Before]

theorem keyLess_strict : (∀ a : Key α, keyLess a a = false) ∧
    (∀ a b c : Key α, keyLess a b = true → keyLess b c = true → keyLess a c = true) ∧
    (∀ a b c : Key α, keyLess a b = false → keyLess b a = false → keyLess b c = false → keyLess c b = false →
      keyLess a c = false ∧ keyLess c a = false) := by
  refine ⟨?_, ?_, ?_⟩
  · intro a; cases a <;> simp [keyLess]
  · intro a b c
    cases a <;> cases b <;> cases c <;> simp [keyLess]
    exact fun h h' => lt_trans h h'
  · intro a b c
    cases a <;> cases b <;> cases c <;> simp [keyLess]
    exact fun h1 h2 h3 h4 => ⟨le_trans h3 h1, le_trans h2 h4⟩

/-- Of two different keys one is before the other. -/
theorem keyLess_of_not {a b : Key α} (h : keyLess b a = false) (h' : keyEq a b = false) : keyLess a b = true := by
  cases a <;> cases b <;> simp_all [keyLess, keyEq]
  exact lt_of_le_of_ne h h'

/-! ### runs of equal values -/

theorem runsFrom_pos (k : Key α) : ∀ (vs : List (Key α)) (begin i : Int) (value : Key α), begin ≤ i →
    positions (((runsFrom begin value i vs).filter (fun p => keyEq k p.1)).map Prod.snd) =
      (if keyEq k value then intRange begin i else []) ++ posFrom (keyEq k) i vs
  | [], begin, i, value, h => by
    by_cases hk : keyEq k value = true <;> simp [runsFrom, hk, positions, posFrom]
  | v :: vs, begin, i, value, h => by
    simp only [runsFrom]
    by_cases hv : keyEq v value = true
    · rw [if_pos hv, runsFrom_pos k vs begin (i + 1) value (by omega)]
      have hc : keyEq k v = keyEq k value := keyEq_congr hv k
      simp only [posFrom, hc]
      by_cases hk : keyEq k value = true
      · simp only [hk, if_true, ← List.append_assoc, intRange_concat h]
      · simp [hk]
    · rw [if_neg hv]
      have ih := runsFrom_pos k vs i (i + 1) v (by omega)
      rw [intRange_one] at ih
      simp only [posFrom]
      rw [← ih]
      by_cases hk : keyEq k value = true
      · simp [hk, positions_cons]
      · simp [hk]

theorem runs_pos (k : Key α) (values : List (Key α)) :
    positions (((runs values).filter (fun p => keyEq k p.1)).map Prod.snd) = posFrom (keyEq k) 0 values := by
  cases values with
  | nil => rfl
  | cons v vs =>
    simp only [runs, posFrom]
    have := runsFrom_pos k vs 0 1 v (by omega)
    rw [this]
    have h1 : intRange 0 1 = [0] := intRange_one 0
    rw [h1]
    rfl

theorem runsFrom_keys : ∀ (vs : List (Key α)) (begin i : Int) (value : Key α),
    ∀ p ∈ runsFrom begin value i vs, p.1 = value ∨ p.1 ∈ vs
  | [], begin, i, value, p, hp => by simp only [runsFrom, List.mem_singleton] at hp; rw [hp]; exact .inl rfl
  | v :: vs, begin, i, value, p, hp => by
    simp only [runsFrom] at hp
    split at hp
    · rcases runsFrom_keys vs _ _ _ p hp with h | h
      · exact .inl h
      · exact .inr (by simp [h])
    · rcases List.mem_cons.1 hp with h | h
      · rw [h]; exact .inl rfl
      · rcases runsFrom_keys vs _ _ _ p h with h | h
        · exact .inr (by simp [h])
        · exact .inr (by simp [h])

theorem runs_keys (values : List (Key α)) : ∀ p ∈ runs values, p.1 ∈ values := by
  cases values with
  | nil => simp [runs]
  | cons v vs =>
    intro p hp
    rcases runsFrom_keys vs 0 1 v p hp with h | h
    · rw [h]; simp
    · simp [h]

theorem runsFrom_covers : ∀ (vs : List (Key α)) (begin i : Int) (value : Key α),
    (∃ p ∈ runsFrom begin value i vs, keyEq p.1 value = true) ∧ ∀ v ∈ vs, ∃ p ∈ runsFrom begin value i vs, keyEq p.1 v = true
  | [], begin, i, value => ⟨⟨_, by simp [runsFrom]; rfl, keyEq_refl _⟩, by simp⟩
  | v :: vs, begin, i, value => by
    simp only [runsFrom]
    by_cases hv : keyEq v value = true
    · rw [if_pos hv]
      obtain ⟨⟨p, h1, h2⟩, h3⟩ := runsFrom_covers vs begin (i + 1) value
      refine ⟨⟨p, h1, h2⟩, fun w hw => ?_⟩
      rcases List.mem_cons.1 hw with rfl | hw
      · exact ⟨p, h1, keyEq_trans h2 (keyEq_symm hv)⟩
      · exact h3 w hw
    · rw [if_neg hv]
      obtain ⟨⟨p, h1, h2⟩, h3⟩ := runsFrom_covers vs i (i + 1) v
      refine ⟨⟨_, List.mem_cons_self .., keyEq_refl _⟩, fun w hw => ?_⟩
      rcases List.mem_cons.1 hw with rfl | hw
      · exact ⟨p, List.mem_cons_of_mem _ h1, h2⟩
      · obtain ⟨q, q1, q2⟩ := h3 w hw
        exact ⟨q, List.mem_cons_of_mem _ q1, q2⟩

theorem runs_covers (values : List (Key α)) : ∀ v ∈ values, ∃ p ∈ runs values, keyEq p.1 v = true := by
  cases values with
  | nil => simp
  | cons v vs =>
    intro w hw
    obtain ⟨h1, h3⟩ := runsFrom_covers vs 0 1 v
    rcases List.mem_cons.1 hw with rfl | hw
    · exact h1
    · exact h3 w hw

/-! ### the map -/

/-- The hash is a function of the key up to equality, as required of the hash of a `std::unordered_map`. -/
def HashOk (hash : Key α → Nat) : Prop := ∀ a b, keyEq a b = true → hash a = hash b

theorem found_eq {hash : Key α → Nat} (h : HashOk hash) (k e : Key α) : found hash k e = keyEq k e := by
  unfold found
  rw [keyEq_comm e k]
  cases hk : keyEq k e with
  | false => simp
  | true => simp [h _ _ (keyEq_symm hk)]

/-- What the map contains after adding runs `l`. -/
structure MapInv (l : List (Key α × (Int × Int))) (m : GroupMap α) : Prop where
  distinct : (m.map Prod.fst).Pairwise (fun a b => keyEq a b = false)
  content : ∀ e ∈ m, e.2 = (l.filter (fun p => keyEq e.1 p.1)).map Prod.snd
  covers : ∀ p ∈ l, ∃ e ∈ m, keyEq e.1 p.1 = true
  fromRuns : ∀ e ∈ m, ∃ p ∈ l, p.1 = e.1

theorem emplace_keys {hash : Key α → Nat} (h : HashOk hash) (k : Key α) (r : Int × Int) : ∀ m : GroupMap α,
    (GroupMap.emplace hash k r m).map Prod.fst = if (∃ e ∈ m, keyEq k e.1 = true) then m.map Prod.fst else m.map Prod.fst ++ [k]
  | [] => by simp [GroupMap.emplace]
  | e :: m => by
    simp only [GroupMap.emplace, found_eq h]
    by_cases he : keyEq k e.1 = true
    · rw [if_pos he, if_pos ⟨e, by simp, he⟩]; rfl
    · rw [if_neg he, List.map_cons, emplace_keys h k r m]
      by_cases hex : ∃ e ∈ m, keyEq k e.1 = true
      · obtain ⟨e', h1, h2⟩ := hex
        rw [if_pos ⟨e', h1, h2⟩, if_pos ⟨e', by simp [h1], h2⟩]; rfl
      · have : ¬ ∃ e' ∈ e :: m, keyEq k e'.1 = true := by
          rintro ⟨e', h1, h2⟩
          rcases List.mem_cons.1 h1 with rfl | h1
          · exact he h2
          · exact hex ⟨e', h1, h2⟩
        rw [if_neg hex, if_neg this]; rfl

theorem emplace_mem {hash : Key α → Nat} (h : HashOk hash) (k : Key α) (r : Int × Int) : ∀ (m : GroupMap α),
    (m.map Prod.fst).Pairwise (fun a b => keyEq a b = false) →
    ∀ e' ∈ GroupMap.emplace hash k r m, (∃ e ∈ m, e'.1 = e.1 ∧ e'.2 = if keyEq k e.1 then e.2 ++ [r] else e.2) ∨
      ((∀ e ∈ m, keyEq k e.1 = false) ∧ e' = (k, [r]))
  | [], _, e', he' => by
    simp only [GroupMap.emplace, List.mem_singleton] at he'
    exact .inr ⟨by simp, he'⟩
  | e :: m, hd, e', he' => by
    simp only [List.map_cons, List.pairwise_cons] at hd
    simp only [GroupMap.emplace, found_eq h] at he'
    by_cases hk : keyEq k e.1 = true
    · rw [if_pos hk] at he'
      rcases List.mem_cons.1 he' with rfl | hm
      · exact .inl ⟨e, by simp, rfl, by rw [if_pos hk]⟩
      · refine .inl ⟨e', by simp [hm], rfl, ?_⟩
        have : keyEq k e'.1 = false := by
          have := hd.1 e'.1 (List.mem_map_of_mem hm)
          rw [keyEq_comm k, keyEq_congr hk, keyEq_comm]
          exact this
        rw [this]; rfl
    · rw [if_neg hk] at he'
      rcases List.mem_cons.1 he' with rfl | hm
      · exact .inl ⟨_, by simp, rfl, by rw [if_neg hk]⟩
      · rcases emplace_mem h k r m hd.2 e' hm with ⟨e'', h1, h2⟩ | ⟨h1, h2⟩
        · exact .inl ⟨e'', by simp [h1], h2⟩
        · refine .inr ⟨fun e'' he'' => ?_, h2⟩
          rcases List.mem_cons.1 he'' with rfl | he''
          · simpa using hk
          · exact h1 e'' he''

theorem emplace_inv {hash : Key α → Nat} (h : HashOk hash) {l : List (Key α × (Int × Int))} {m : GroupMap α} (hi : MapInv l m)
    (p : Key α × (Int × Int)) : MapInv (l ++ [p]) (GroupMap.emplace hash p.1 p.2 m) := by
  have hkeys := emplace_keys h p.1 p.2 m
  have hmem := emplace_mem h p.1 p.2 m hi.distinct
  have hcov : ∀ k, (∃ e ∈ m, keyEq e.1 k = true) → ∃ e ∈ GroupMap.emplace hash p.1 p.2 m, keyEq e.1 k = true := by
    rintro k ⟨e, h1, h2⟩
    have : e.1 ∈ (GroupMap.emplace hash p.1 p.2 m).map Prod.fst := by
      rw [hkeys]
      split
      · exact List.mem_map_of_mem h1
      · exact List.mem_append_left _ (List.mem_map_of_mem h1)
    obtain ⟨e', h3, h4⟩ := List.mem_map.1 this
    exact ⟨e', h3, by rw [h4]; exact h2⟩
  refine ⟨?_, ?_, ?_, ?_⟩
  · rw [hkeys]
    split
    · exact hi.distinct
    · rename_i hne
      rw [List.pairwise_append]
      refine ⟨hi.distinct, by simp, fun a ha b hb => ?_⟩
      rw [List.mem_singleton.1 hb]
      obtain ⟨e, h1, rfl⟩ := List.mem_map.1 ha
      cases hc : keyEq e.1 p.1 with
      | false => rfl
      | true => exact absurd ⟨e, h1, keyEq_symm hc⟩ hne
  · intro e' he'
    rcases hmem e' he' with ⟨e, h1, h2, h3⟩ | ⟨h1, rfl⟩
    · rw [h3, h2, List.filter_append, List.map_append, ← hi.content e h1, keyEq_comm p.1]
      by_cases hk : keyEq e.1 p.1 = true
      · simp [hk]
      · simp [hk]
    · rw [List.filter_append, List.map_append]
      have : l.filter (fun q => keyEq p.1 q.1) = [] := by
        rw [List.filter_eq_nil_iff]
        intro q hq hc
        obtain ⟨e, h4, h5⟩ := hi.covers q hq
        have := h1 e h4
        rw [keyEq_trans hc (keyEq_symm h5)] at this
        cases this
      simp [this, keyEq_refl]
  · intro q hq
    rcases List.mem_append.1 hq with hq | hq
    · exact hcov _ (hi.covers q hq)
    · rw [List.mem_singleton.1 hq]
      by_cases hex : ∃ e ∈ m, keyEq p.1 e.1 = true
      · obtain ⟨e, h1, h2⟩ := hex
        exact hcov _ ⟨e, h1, keyEq_symm h2⟩
      · have : p.1 ∈ (GroupMap.emplace hash p.1 p.2 m).map Prod.fst := by rw [hkeys, if_neg hex]; simp
        obtain ⟨e, h1, h2⟩ := List.mem_map.1 this
        exact ⟨e, h1, by rw [h2]; exact keyEq_refl _⟩
  · intro e' he'
    rcases hmem e' he' with ⟨e, h1, h2, _⟩ | ⟨_, rfl⟩
    · obtain ⟨q, h4, h5⟩ := hi.fromRuns e h1
      exact ⟨q, by simp [h4], by rw [h5, h2]⟩
    · exact ⟨p, by simp, rfl⟩

theorem foldl_inv {hash : Key α → Nat} (h : HashOk hash) : ∀ (l l' : List (Key α × (Int × Int))) (m : GroupMap α), MapInv l' m →
    MapInv (l' ++ l) (l.foldl (fun m p => GroupMap.emplace hash p.1 p.2 m) m)
  | [], l', m, hi => by simpa using hi
  | p :: l, l', m, hi => by
    have := foldl_inv h l (l' ++ [p]) _ (emplace_inv h hi p)
    simpa using this

theorem map_at {hash : Key α → Nat} (h : HashOk hash) : ∀ (m : GroupMap α), (m.map Prod.fst).Pairwise (fun a b => keyEq a b = false) →
    ∀ e ∈ m, GroupMap.at hash m e.1 = .ok e.2
  | [], _, e, he => by cases he
  | e' :: m, hd, e, he => by
    simp only [List.map_cons, List.pairwise_cons] at hd
    unfold GroupMap.at
    rcases List.mem_cons.1 he with rfl | hm
    · rw [List.find?_cons_of_pos (by rw [found_eq h]; exact keyEq_refl _)]
    · have hne : keyEq e.1 e'.1 = false := by
        rw [keyEq_comm]; exact hd.1 _ (List.mem_map_of_mem hm)
      rw [List.find?_cons_of_neg (by rw [found_eq h, hne]; simp)]
      exact map_at h m hd.2 e hm

theorem mapM_at {hash : Key α → Nat} (m : GroupMap α) (f : Key α → List (Int × Int)) : ∀ keys : List (Key α),
    (∀ k ∈ keys, GroupMap.at hash m k = .ok (f k)) → keys.mapM (GroupMap.at hash m) = .ok (keys.map f)
  | [], _ => rfl
  | k :: keys, h => by
    rw [List.mapM_cons, h k (by simp), mapM_at m f keys (fun k' hk' => h k' (by simp [hk']))]
    rfl

/-- A hash agreeing on all NaN of interest can be replaced by one agreeing on all NaN. -/
theorem fold_congr {hash hash' : Key α → Nat} (S : Key α → Prop) (hS : ∀ a b, S a → S b → found hash a b = found hash' a b) :
    ∀ (l : List (Key α × (Int × Int))) (m : GroupMap α), (∀ p ∈ l, S p.1) → (∀ e ∈ m, S e.1) →
      l.foldl (fun m p => GroupMap.emplace hash p.1 p.2 m) m = l.foldl (fun m p => GroupMap.emplace hash' p.1 p.2 m) m ∧
      ∀ e ∈ l.foldl (fun m p => GroupMap.emplace hash p.1 p.2 m) m, S e.1 := by
  have hemp : ∀ (k : Key α) (r : Int × Int) (m : GroupMap α), S k → (∀ e ∈ m, S e.1) →
      GroupMap.emplace hash k r m = GroupMap.emplace hash' k r m ∧ ∀ e ∈ GroupMap.emplace hash k r m, S e.1 := by
    intro k r m hk
    induction m with
    | nil => intro _; exact ⟨rfl, by simpa [GroupMap.emplace] using hk⟩
    | cons e m ih =>
      intro hm
      obtain ⟨h1, h2⟩ := ih (fun e' he' => hm e' (by simp [he']))
      have he := hm e (by simp)
      simp only [GroupMap.emplace, hS k e.1 hk he]
      split
      · refine ⟨rfl, fun e' he' => ?_⟩
        rcases List.mem_cons.1 he' with rfl | he'
        · exact he
        · exact hm e' (by simp [he'])
      · refine ⟨by rw [h1], fun e' he' => ?_⟩
        rcases List.mem_cons.1 he' with rfl | he'
        · exact he
        · exact h2 e' he'
  intro l
  induction l with
  | nil => intro m _ hm; exact ⟨rfl, hm⟩
  | cons p l ih =>
    intro m hl hm
    obtain ⟨h1, h2⟩ := hemp p.1 p.2 m (hl p (by simp)) hm
    simp only [List.foldl_cons]
    obtain ⟨h3, h4⟩ := ih (GroupMap.emplace hash p.1 p.2 m) (fun q hq => hl q (by simp [hq])) h2
    exact ⟨by rw [h3, h1], h4⟩

theorem at_congr {hash hash' : Key α → Nat} (S : Key α → Prop) (hS : ∀ a b, S a → S b → found hash a b = found hash' a b)
    (m : GroupMap α) (hm : ∀ e ∈ m, S e.1) (k : Key α) (hk : S k) : GroupMap.at hash m k = GroupMap.at hash' m k := by
  have : m.find? (fun e => found hash k e.1) = m.find? (fun e => found hash' k e.1) := by
    induction m with
    | nil => rfl
    | cons e m ih =>
      simp only [List.find?_cons, hS k e.1 hk (hm e (by simp)), ih (fun e' he' => hm e' (by simp [he']))]
  unfold GroupMap.at
  rw [this]

/-! ### reductions -/

variable {M : Type}

theorem maskedSlice_eq (fill : M) (mask : Option (List Bool)) (data : List M) (r : Int × Int) :
    maskedSlice fill mask data r = ((maskedData fill mask data).drop r.1.toNat).take (r.2 - r.1).toNat := by
  cases mask with
  | none => rfl
  | some m => simp only [maskedSlice, maskedData, List.drop_zipWith, List.take_zipWith]

theorem slice_eq (l : List M) (r : Int × Int) (h : ∀ i ∈ intRange r.1 r.2, 0 ≤ i ∧ i < (l.length : Int)) (d : M) :
    (l.drop r.1.toNat).take (r.2 - r.1).toNat = (intRange r.1 r.2).map (fun i => l.getD i.toNat d) := by
  rcases lt_or_ge r.1 r.2 with hlt | hge
  · have h1 := h r.1 (by unfold intRange; exact List.mem_map.2 ⟨0, List.mem_range.2 (by omega), by simp⟩)
    have h2 := h (r.2 - 1) (by unfold intRange; exact List.mem_map.2 ⟨(r.2 - 1 - r.1).toNat, List.mem_range.2 (by omega), by omega⟩)
    refine List.ext_getElem ?_ (fun k k1 k2 => ?_)
    · simp only [List.length_take, List.length_drop, List.length_map, intRange, List.length_range]; omega
    · simp only [List.length_map, intRange, List.length_range] at k2
      simp only [List.getElem_take, List.getElem_drop, List.getElem_map, intRange, List.getElem_range]
      rw [show (r.1 + (k : Int)).toNat = r.1.toNat + k by omega, List.getD_eq_getElem?_getD, List.getElem?_eq_getElem (by omega)]
      rfl
  · have : (r.2 - r.1).toNat = 0 := by omega
    simp [this, intRange]

/-- The result for a group is the accumulation of its elements in order. -/
theorem reduceGroups_eq (op : M → M → M) (fill : M) (mask : Option (List Bool)) (data : List M) (groups : List (List (Int × Int)))
    (h : ∀ g ∈ groups, ∀ i ∈ positions g, 0 ≤ i ∧ i < ((maskedData fill mask data).length : Int)) (d : M) :
    reduceGroups op fill mask data groups =
      groups.map (fun g => ((positions g).map (fun i => (maskedData fill mask data).getD i.toNat d)).foldl op fill) := by
  unfold reduceGroups
  refine List.map_congr_left (fun g hg => ?_)
  have hin := h g hg
  clear h hg
  suffices hs : ∀ acc, g.foldl (fun out r => (maskedSlice fill mask data r).foldl op out) acc =
      ((positions g).map (fun i => (maskedData fill mask data).getD i.toNat d)).foldl op acc from hs fill
  induction g with
  | nil => intro acc; rfl
  | cons r g ih =>
    intro acc
    rw [positions_cons] at hin
    rw [List.foldl_cons, ih (fun i hi => hin i (List.mem_append_right _ hi)), positions_cons, List.map_append, List.foldl_append,
      maskedSlice_eq, slice_eq _ _ (fun i hi => hin i (List.mem_append_left _ hi)) d]

/-! ### runs of values in bins -/

/-- The value is in bin `g` of the edges. -/
def inBin (edges : List α) (g : Nat) (v : Option α) : Bool :=
  match v, edges[g]?, edges[g + 1]? with
  | some x, some l, some r => decide (l ≤ x) && decide (x < r)
  | _, _, _ => false

/-- A run refers to a bin of the edges. -/
def RunOk (edges : List α) (r : Run α) : Prop := edges[r.bin]? = some r.left ∧ edges[r.bin + 1]? = some r.right

theorem extends_eq {edges : List α} {r : Run α} (h : RunOk edges r) (v : Option α) : r.extends v = inBin edges r.bin v := by
  cases v with
  | none => rfl
  | some x => simp only [Run.extends, inBin, h.1, h.2]

/-- Only one bin contains a value. -/
theorem inBin_unique {edges : List α} (hs : edges.Pairwise (· ≤ ·)) {g g' : Nat} {v : Option α} (h : inBin edges g v = true)
    (h' : inBin edges g' v = true) : g = g' := by
  have hget : ∀ (i j : Nat) (a b : α), i ≤ j → edges[i]? = some a → edges[j]? = some b → a ≤ b := by
    intro i j a b hij ha hb
    obtain ⟨i1, rfl⟩ := List.getElem?_eq_some_iff.1 ha
    obtain ⟨j1, rfl⟩ := List.getElem?_eq_some_iff.1 hb
    rcases Nat.lt_or_eq_of_le hij with hlt | rfl
    · exact List.pairwise_iff_getElem.1 hs i j i1 j1 hlt
    · exact le_refl _
  cases v with
  | none => simp [inBin] at h
  | some x =>
    simp only [inBin] at h h'
    cases e1 : edges[g]? with
    | none => simp [e1] at h
    | some l =>
      cases e2 : edges[g + 1]? with
      | none => simp [e1, e2] at h
      | some r =>
        cases e3 : edges[g']? with
        | none => simp [e3] at h'
        | some l' =>
          cases e4 : edges[g' + 1]? with
          | none => simp [e3, e4] at h'
          | some r' =>
            simp only [e1, e2, e3, e4, Bool.and_eq_true, decide_eq_true_eq] at h h'
            rcases Nat.lt_trichotomy g g' with hlt | heq | hgt
            · exact absurd (lt_of_le_of_lt (le_trans (hget (g + 1) g' r l' hlt e2 e3) h'.1) h.2) (lt_irrefl _)
            · exact heq
            · exact absurd (lt_of_le_of_lt (le_trans (hget (g' + 1) g r' l hgt e4 e1) h.1) h'.2) (lt_irrefl _)

theorem startRun_spec {edges : List α} (hs : edges.Pairwise (· ≤ ·)) (v : Option α) (i : Int) :
    match startRun edges v i with
    | some r => RunOk edges r ∧ r.begin = i ∧ inBin edges r.bin v = true
    | none => ∀ g, inBin edges g v = false := by
  cases v with
  | none =>
    have : startRun edges none i = none := by simp [startRun, upperBound_nan]
    rw [this]
    intro g; rfl
  | some x =>
    obtain ⟨u1, u2, u3⟩ := upperBound_spec (edges := edges) x
    unfold startRun
    simp only
    generalize upperBound edges (some x) = k at u1 u2 u3
    by_cases hk : k ≠ edges.length ∧ k ≠ 0
    · rw [if_pos hk]
      have h1 : edges[k - 1]? = some edges[k - 1] := List.getElem?_eq_getElem (by omega)
      have h2 : edges[k]? = some edges[k] := List.getElem?_eq_getElem (by omega)
      simp only [h1, h2]
      have hk1 : k - 1 + 1 = k := by omega
      refine ⟨⟨h1, by rw [show (k - 1 + 1) = k from hk1]; exact h2⟩, trivial, ?_⟩
      simp only [inBin, h1, hk1, h2, Bool.and_eq_true, decide_eq_true_eq]
      exact ⟨u1 (k - 1) _ (by omega) h1, u2 _ h2⟩
    · rw [if_neg hk]
      intro g
      cases hc : inBin edges g (some x) with
      | false => rfl
      | true =>
        exfalso
        simp only [inBin] at hc
        cases e1 : edges[g]? with
        | none => simp [e1] at hc
        | some l =>
          cases e2 : edges[g + 1]? with
          | none => simp [e1, e2] at hc
          | some r =>
            simp only [e1, e2, Bool.and_eq_true, decide_eq_true_eq] at hc
            obtain ⟨g1, hg1⟩ := List.getElem?_eq_some_iff.1 e2
            have hk' : k = edges.length ∨ k = 0 := by
              by_contra hcon; push Not at hcon; exact hk hcon
            rcases hk' with rfl | rfl
            · exact absurd (lt_of_lt_of_le hc.2 (u1 (g + 1) r g1 e2)) (lt_irrefl _)
            · have h0 : edges[0]? = some edges[0] := List.getElem?_eq_getElem (by omega)
              have hlt := u2 _ h0
              have hle : edges[0] ≤ l := by
                obtain ⟨j1, rfl⟩ := List.getElem?_eq_some_iff.1 e1
                rcases Nat.eq_zero_or_pos g with rfl | hg
                · exact le_refl _
                · exact List.pairwise_iff_getElem.1 hs 0 g (by omega) j1 hg
              exact absurd (lt_of_lt_of_le hlt (le_trans hle hc.1)) (lt_irrefl _)

/-- The positions put in group `g` by an open run. -/
def openPositions (g : Nat) (i : Int) : Option (Run α) → List Int
  | none => []
  | some r => if r.bin = g then intRange r.begin i else []

theorem start_positions {edges : List α} (hs : edges.Pairwise (· ≤ ·)) (g : Nat) (v : Option α) (i : Int) :
    openPositions g (i + 1) (startRun edges v i) = (if inBin edges g v then [i] else []) ∧
    ∀ r, startRun edges v i = some r → RunOk edges r ∧ r.begin ≤ i + 1 := by
  have h := startRun_spec hs v i
  cases hr : startRun edges v i with
  | none =>
    rw [hr] at h
    simp only [h g]
    exact ⟨rfl, fun r hr => by cases hr⟩
  | some r =>
    rw [hr] at h
    obtain ⟨h1, h2, h3⟩ := h
    refine ⟨?_, fun r' hr' => ?_⟩
    · simp only [openPositions, h2, intRange_one]
      by_cases hg : r.bin = g
      · rw [if_pos hg, ← hg, if_pos h3]
      · rw [if_neg hg, if_neg]
        intro hc
        exact hg (inBin_unique hs h3 hc)
    · cases hr'
      exact ⟨h1, by omega⟩

theorem binRuns_pos {edges : List α} (hs : edges.Pairwise (· ≤ ·)) (g : Nat) : ∀ (vs : List (Option α)) (st : Option (Run α)) (i : Int),
    (∀ r, st = some r → RunOk edges r ∧ r.begin ≤ i) →
    positions (((binRuns edges st i vs).filter (fun p => p.1 = g)).map Prod.snd) = openPositions g i st ++ posFrom (inBin edges g) i vs
  | [], none, i, _ => rfl
  | [], some r, i, _ => by
    by_cases hg : r.bin = g <;> simp [binRuns, openPositions, hg, positions, posFrom]
  | v :: vs, none, i, _ => by
    obtain ⟨h1, h2⟩ := start_positions hs g v i
    simp only [binRuns]
    rw [binRuns_pos hs g vs _ _ h2, h1]
    simp [openPositions, posFrom]
  | v :: vs, some r, i, h => by
    obtain ⟨h3, h4⟩ := h r rfl
    simp only [binRuns]
    by_cases hv : r.extends v = true
    · rw [if_pos hv, binRuns_pos hs g vs (some r) (i + 1) (fun r' hr' => by cases hr'; exact ⟨h3, by omega⟩)]
      rw [extends_eq h3] at hv
      simp only [openPositions, posFrom]
      by_cases hg : r.bin = g
      · rw [if_pos hg, if_pos hg, ← hg, if_pos hv, ← List.append_assoc, intRange_concat h4]
      · rw [if_neg hg, if_neg hg, if_neg]
        · rfl
        · exact fun hc => hg (inBin_unique hs hv hc)
    · rw [if_neg hv]
      obtain ⟨h1, h2⟩ := start_positions hs g v i
      have ih := binRuns_pos hs g vs _ _ h2
      rw [h1] at ih
      simp only [posFrom]
      rw [← ih]
      by_cases hg : r.bin = g
      · simp [hg, positions_cons, openPositions]
      · simp [hg, openPositions]

end Scipp.GroupBy
