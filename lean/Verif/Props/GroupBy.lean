import Verif.Lemmas.GroupBy
import Mathlib.Data.List.Sort
import Mathlib.Algebra.BigOperators.Group.List.Basic
/-!
C39: groupby. C40: groupby with bins.
-/
namespace Scipp.Props
open Scipp Scipp.GroupBy
variable {α : Type} [LinearOrder α]

/-! ### C39 -/

/-- **C39**: the labels of the groups are the distinct values of the coord in strictly ascending order with NaN last (and thus at most one NaN);
the group labelled `k` consists of exactly the positions with value `k`, in order; every position is in exactly one group. This holds
for every sort algorithm meeting its contract. Missing for the full claim: NaN of different representation, with different hash, see
`C39_wrong_for_nan`. -/
theorem C39_groups_partial (hash : Key α → Nat) (sorter : KeySorter α) (hs : KeySorterOk sorter) (values : List (Key α))
    (hnan : ∀ b b', Key.nan b ∈ values → Key.nan b' ∈ values → hash (.nan b) = hash (.nan b')) :
    ∃ keys groups, makeGroups hash sorter values = .ok (keys, groups) ∧
      keys.Pairwise Before ∧ (∀ k ∈ keys, k ∈ values) ∧ (∀ v ∈ values, ∃ k ∈ keys, Same v k) ∧
      groups.map positions = keys.map (members values) ∧
      (groups.flatMap positions).Perm ((List.range values.length).map (fun i : Nat => (i : Int))) := by
  -- a hash that agrees on all NaN
  obtain ⟨hash', hok, hfound⟩ : ∃ hash' : Key α → Nat, HashOk hash' ∧ ∀ a b, a ∈ values → b ∈ values → found hash a b = found hash' a b := by
    by_cases hex : ∃ b, Key.nan b ∈ values
    · obtain ⟨b0, hb0⟩ := hex
      refine ⟨fun k => match k with | .num x => hash (.num x) | .nan _ => hash (.nan b0), ?_, ?_⟩
      · intro a b h
        cases a <;> cases b <;> simp_all [keyEq]
      · intro a b ha hb
        cases a <;> cases b <;> simp [found, keyEq]
        rename_i b1 b2
        exact hnan _ _ hb ha
    · refine ⟨fun k => match k with | .num x => hash (.num x) | .nan _ => 0, ?_, ?_⟩
      · intro a b h
        cases a <;> cases b <;> simp_all [keyEq]
      · intro a b ha hb
        cases a with
        | nan x => exact absurd ⟨x, ha⟩ hex
        | num x =>
          cases b with
          | nan y => exact absurd ⟨y, hb⟩ hex
          | num y => simp [found, keyEq]
  obtain ⟨f1, f2⟩ := fold_congr (fun k => k ∈ values) hfound (runs values) [] (runs_keys values) (by simp)
  have hinv := foldl_inv hok (runs values) [] [] ⟨by simp, by simp, by simp, by simp⟩
  rw [List.nil_append] at hinv
  rw [← f1] at hinv
  generalize hm : (runs values).foldl (fun m p => GroupMap.emplace hash p.1 p.2 m) [] = m at f2 hinv
  obtain ⟨c1, c2, c3⟩ := keyLess_strict (α := α)
  obtain ⟨hperm, hsorted⟩ := hs keyLess (m.map Prod.fst) c1 c2 c3
  generalize hk : sorter keyLess (m.map Prod.fst) = keys at hperm hsorted
  have hkey : ∀ k ∈ keys, ∃ e ∈ m, e.1 = k := fun k hk' => List.mem_map.1 (hperm.mem_iff.1 hk')
  have hkv : ∀ k ∈ keys, k ∈ values := by
    intro k hk'
    obtain ⟨e, h1, h2⟩ := hkey k hk'
    rw [← h2]; exact f2 e h1
  -- the content of the groups
  let content := fun k : Key α => ((runs values).filter (fun p => keyEq k p.1)).map Prod.snd
  have hgroups : keys.mapM (GroupMap.at hash m) = .ok (keys.map content) := by
    refine mapM_at m content keys (fun k hk' => ?_)
    obtain ⟨e, h1, rfl⟩ := hkey k hk'
    rw [at_congr (fun k => k ∈ values) hfound m f2 _ (hkv _ hk'), map_at hok m hinv.distinct e h1, hinv.content e h1]
  have hcontent : ∀ k, positions (content k) = members values k := by
    intro k
    show positions (((runs values).filter (fun p => keyEq k p.1)).map Prod.snd) = _
    rw [runs_pos]
    have := posFrom_eq (keyEq k) values 0
    rw [Nat.cast_zero] at this
    rw [this]
    unfold members
    have hp : (fun i : Nat => (values[i]?).any (keyEq k)) = (fun i => (values[i]?).any (fun v => decide (Same k v))) := by
      funext i
      cases values[i]? with
      | none => rfl
      | some v =>
        simp only [Option.any_some]
        rw [Bool.eq_iff_iff, keyEq_iff, decide_eq_true_iff]
    rw [hp]
    refine List.map_congr_left (fun i _ => ?_)
    simp
  have hdistinct : keys.Pairwise (fun a b => keyEq a b = false) := by
    have := hinv.distinct
    exact (hperm.pairwise_iff (fun {a b} h => by rw [keyEq_comm]; exact h)).2 this
  have hcover : ∀ v ∈ values, ∃ k ∈ keys, Same v k := by
    intro v hv
    obtain ⟨p, h1, h2⟩ := runs_covers values v hv
    obtain ⟨e, h3, h4⟩ := hinv.covers p h1
    refine ⟨e.1, hperm.mem_iff.2 (List.mem_map_of_mem h3), ?_⟩
    rw [← keyEq_iff]
    exact keyEq_symm (keyEq_trans h4 h2)
  refine ⟨keys, keys.map content, ?_, ?_, hkv, hcover, ?_, ?_⟩
  · unfold makeGroups
    simp only [hm, hk, hgroups]
    rfl
  · refine (hsorted.and hdistinct).imp (fun {a b} h => ?_)
    rw [← keyLess_iff]
    exact keyLess_of_not h.1 h.2
  · rw [List.map_map]
    exact List.map_congr_left (fun k _ => hcontent k)
  · rw [List.flatMap_map]
    simp only [hcontent]
    -- every position occurs once
    have hmem : ∀ i, i ∈ keys.flatMap (members values) ↔ i ∈ (List.range values.length).map (fun i : Nat => (i : Int)) := by
      intro i
      simp only [List.mem_flatMap, members, List.mem_map, List.mem_filter, List.mem_range]
      constructor
      · rintro ⟨k, _, j, ⟨hj, _⟩, rfl⟩
        exact ⟨j, hj, rfl⟩
      · rintro ⟨j, hj, rfl⟩
        obtain ⟨k, h1, h2⟩ := hcover values[j] (List.getElem_mem hj)
        refine ⟨k, h1, j, ⟨hj, ?_⟩, rfl⟩
        rw [List.getElem?_eq_getElem hj, Option.any_some, decide_eq_true_iff, ← keyEq_iff]
        exact keyEq_symm ((keyEq_iff _ _).2 h2)
    have hinj : Function.Injective (fun i : Nat => (i : Int)) := fun a b h => Int.ofNat.inj h
    refine (List.perm_ext_iff_of_nodup ?_ (List.nodup_range.map hinj)).2 hmem
    rw [List.nodup_flatMap]
    refine ⟨fun k _ => (List.nodup_range.filter _).map hinj, hdistinct.imp (fun {a b} hab => ?_)⟩
    intro i hi hi'
    simp only [members, List.mem_map, List.mem_filter, List.mem_range] at hi hi'
    obtain ⟨j, ⟨hj, hj1⟩, rfl⟩ := hi
    obtain ⟨j', ⟨hj', hj1'⟩, he⟩ := hi'
    have : j' = j := hinj he
    subst this
    rw [List.getElem?_eq_getElem hj, Option.any_some, decide_eq_true_iff, ← keyEq_iff] at hj1 hj1'
    rw [keyEq_trans hj1 (keyEq_symm hj1')] at hab
    cases hab

/-- NaN of different representation (say, with different sign) have different hashes and form several groups, although they compare
equal. -/
theorem C39_wrong_for_nan : (makeGroups (α := Int) (fun k => match k with | .num _ => 0 | .nan b => b + 1) (fun lt l => l.insertionSort (fun a b => lt b a = false))
    [.nan 0, .num 5, .nan 1]) = .ok ([.num 5, .nan 0, .nan 1], [[(1, 2)], [(0, 1)], [(2, 3)]]) ∨
    (makeGroups (α := Int) (fun k => match k with | .num _ => 0 | .nan b => b + 1) (fun lt l => l.insertionSort (fun a b => lt b a = false))
    [.nan 0, .num 5, .nan 1]) = .ok ([.num 5, .nan 1, .nan 0], [[(1, 2)], [(2, 3)], [(0, 1)]]) := by decide

omit [LinearOrder α] in
/-- Insertion sort meets the contract. -/
theorem insertionSort_keySorterOk : KeySorterOk (α := α) (fun lt l => l.insertionSort (fun a b => lt b a = false)) := by
  intro lt l h1 h2 h3
  have htrans : IsTrans (Key α) (fun a b => lt b a = false) := ⟨fun a b c hab hbc => by
    cases hca : lt c a with
    | false => rfl
    | true =>
      cases hab' : lt a b with
      | true => rw [h2 c a b hca hab'] at hbc; cases hbc
      | false =>
        cases hbc' : lt b c with
        | true => rw [h2 b c a hbc' hca] at hab; cases hab
        | false =>
          have := (h3 a b c hab' hab hbc' hbc).2
          rw [hca] at this; cases this⟩
  have htotal : Std.Total (α := Key α) (fun a b => lt b a = false) := ⟨fun a b => by
    cases hab : lt a b with
    | false => exact .inr rfl
    | true =>
      cases hba : lt b a with
      | false => exact .inl rfl
      | true => have := h2 a b a hab hba; rw [h1] at this; cases this⟩
  exact ⟨List.perm_insertionSort _ _, List.pairwise_insertionSort _ _⟩

example : (makeGroups (α := Int) (fun _ => 0) (fun lt l => l.insertionSort (fun a b => lt b a = false))
    [.num 5, .num 5, .nan 3, .num 2, .num 5, .nan 4, .nan 3]) =
    .ok ([.num 2, .num 5, .nan 3], [[(3, 4)], [(0, 2), (4, 5)], [(2, 3), (5, 7)]]) := by decide

variable {M : Type}

/-- **C39** (reductions): every group is reduced by accumulating its elements in order, masked elements replaced by the fill value. -/
theorem C39_reduce (op : M → M → M) (fill : M) (mask : Option (List Bool)) (data : List M) (n : Nat) (hd : data.length = n)
    (hm : ∀ m, mask = some m → m.length = n) (groups : List (List (Int × Int)))
    (hg : ∀ g ∈ groups, ∀ i ∈ positions g, 0 ≤ i ∧ i < n) :
    (reduceGroups op fill mask data groups).map some = groups.map (fun g =>
      (((positions g).mapM (fun i => (maskedData fill mask data)[i.toNat]?)).map (fun l => l.foldl op fill))) := by
  have hlen : (maskedData fill mask data).length = n := by
    cases mask with
    | none => exact hd
    | some m => simp [maskedData, hd, hm m rfl]
  have hin : ∀ g ∈ groups, ∀ i ∈ positions g, 0 ≤ i ∧ i < ((maskedData fill mask data).length : Int) := by
    intro g hg' i hi
    have := hg g hg' i hi
    omega
  rw [reduceGroups_eq op fill mask data groups hin fill, List.map_map]
  refine List.map_congr_left (fun g hg' => ?_)
  have : (positions g).mapM (fun i => (maskedData fill mask data)[i.toNat]?) =
      some ((positions g).map (fun i => (maskedData fill mask data).getD i.toNat fill)) := by
    have hin' := hin g hg'
    generalize positions g = l at hin'
    induction l with
    | nil => rfl
    | cons i l ih =>
      have h1 := hin' i (by simp)
      rw [List.mapM_cons, ih (fun j hj => hin' j (by simp [hj])), List.getElem?_eq_getElem (by omega)]
      simp [List.getD_eq_getElem?_getD, List.getElem?_eq_getElem (show i.toNat < (maskedData fill mask data).length by omega)]
  rw [this]
  rfl

/-- **C39** (sums): the sums over the groups add up to the sum over all elements that are not masked. -/
theorem C39_sum [AddCommMonoid M] (mask : Option (List Bool)) (data : List M) (n : Nat) (hd : data.length = n)
    (hm : ∀ m, mask = some m → m.length = n) (groups : List (List (Int × Int)))
    (hg : (groups.flatMap positions).Perm ((List.range n).map (fun i : Nat => (i : Int)))) :
    (reduceGroups (· + ·) 0 mask data groups).sum = (maskedData 0 mask data).sum := by
  have hlen : (maskedData 0 mask data).length = n := by
    cases mask with
    | none => exact hd
    | some m => simp [maskedData, hd, hm m rfl]
  have hin : ∀ g ∈ groups, ∀ i ∈ positions g, 0 ≤ i ∧ i < ((maskedData 0 mask data).length : Int) := by
    intro g hg' i hi
    have := hg.mem_iff.1 (List.mem_flatMap.2 ⟨g, hg', hi⟩)
    obtain ⟨j, hj, rfl⟩ := List.mem_map.1 this
    rw [List.mem_range] at hj
    omega
  rw [reduceGroups_eq _ _ mask data groups hin 0]
  have hfold : ∀ l : List M, l.foldl (· + ·) 0 = l.sum := fun l => by rw [List.sum_eq_foldl]
  simp only [hfold]
  have hflat : (groups.map (fun g => ((positions g).map (fun i => (maskedData 0 mask data).getD i.toNat 0)).sum)).sum =
      ((groups.flatMap positions).map (fun i => (maskedData 0 mask data).getD i.toNat 0)).sum := by
    clear hg hin
    induction groups with
    | nil => rfl
    | cons g gs ih => rw [List.map_cons, List.sum_cons, ih, List.flatMap_cons, List.map_append, List.sum_append]
  rw [hflat, (hg.map _).sum_eq, List.map_map]
  congr 1
  refine List.ext_getElem (by simp [hlen]) (fun k k1 k2 => ?_)
  simp [List.getD_eq_getElem?_getD, List.getElem?_eq_getElem k2]

example : reduceGroups (· + ·) 0 (some [false, true, false, false]) [1, 2, 3, (4 : Int)] [[(2, 3)], [(0, 2), (3, 4)]] = [3, 5] := by decide

/-! ### C40 -/

theorem inBin_iff (edges : List α) (g : Nat) (v : Option α) : inBin edges g v = true ↔ InBin edges g v := by
  unfold InBin
  cases v with
  | none => simp [inBin]
  | some x =>
    simp only [inBin]
    cases e1 : edges[g]? with
    | none => simp
    | some l =>
      cases e2 : edges[g + 1]? with
      | none => simp
      | some r => simp

/-- **C40**: grouping with sorted bin edges gives one group per bin; group `g` consists of exactly the positions `i` with
`edge[g] <= value[i] < edge[g+1]`, each once and in order. NaN values, and values outside all bins, are in no group. -/
theorem C40_groups (edges : List α) (hs : edges.Pairwise (· ≤ ·)) (h0 : edges ≠ []) (values : List (Option α)) :
    ∃ groups, makeBinGroups edges values = .ok groups ∧ groups.length + 1 = edges.length ∧
      ∀ g ranges, groups[g]? = some ranges → (positions ranges).Pairwise (· < ·) ∧
        ∀ i : Int, i ∈ positions ranges ↔ ∃ (k : Nat) (v : Option α), i = k ∧ values[k]? = some v ∧ InBin edges g v := by
  have hlen : edges.length ≠ 0 := fun h => h0 (List.length_eq_zero_iff.1 h)
  refine ⟨_, by unfold makeBinGroups; rw [if_neg (by simpa using hs), if_neg hlen], ?_, ?_⟩
  · rw [List.length_map, List.length_range]; omega
  · intro g ranges hg
    rw [List.getElem?_map] at hg
    obtain ⟨g', hg1, rfl⟩ := Option.map_eq_some_iff.1 hg
    obtain ⟨hlt, hg1⟩ := List.getElem?_eq_some_iff.1 hg1
    rw [List.getElem_range] at hg1
    subst hg1
    have hp := binRuns_pos hs g values none 0 (fun r hr => by cases hr)
    have hp' := posFrom_eq (inBin edges g) values 0
    rw [Nat.cast_zero] at hp'
    rw [hp, hp']
    simp only [openPositions, List.nil_append, Nat.zero_add]
    refine ⟨?_, fun i => ?_⟩
    · rw [List.pairwise_map]
      refine ((List.pairwise_lt_range).filter _).imp (fun {a b} h => ?_)
      omega
    · simp only [List.mem_map, List.mem_filter, List.mem_range]
      constructor
      · rintro ⟨k, ⟨hk, hk'⟩, rfl⟩
        rw [List.getElem?_eq_getElem hk, Option.any_some] at hk'
        exact ⟨k, values[k], rfl, List.getElem?_eq_getElem hk, (inBin_iff _ _ _).1 hk'⟩
      · rintro ⟨k, v, rfl, hk, hb⟩
        refine ⟨k, ⟨(List.getElem?_eq_some_iff.1 hk).1, ?_⟩, rfl⟩
        rw [hk, Option.any_some]
        exact (inBin_iff _ _ _).2 hb

/-- **C40**: edges that are not sorted are an error. -/
theorem C40_unsorted (edges : List α) (hs : ¬ edges.Pairwise (· ≤ ·)) (values : List (Option α)) :
    makeBinGroups edges values = .error .binEdge := by
  unfold makeBinGroups
  rw [if_pos hs]

example : makeBinGroups [0, 2, 2, 5] [some (1 : Int), some 0, some 2, none, some 4, some 5, some 1, some (-1)] =
    .ok [[(0, 2), (6, 7)], [], [(2, 3), (4, 5)]] := by decide

example := C39_groups_partial (α := Int) (fun _ => 0) (fun lt l => l.insertionSort (fun a b => lt b a = false))
  insertionSort_keySorterOk [.num 5, .num 5, .nan 3, .num 2, .num 5, .nan 4, .nan 3] (fun _ _ _ _ => rfl)
example := C39_reduce (· + ·) 0 (some [false, true, false, false]) [1, 2, 3, (4 : Int)] 4 rfl (by simp)
  [[(2, 3)], [(0, 2), (3, 4)]] (by decide)
example := C39_sum (some [false, true, false, false]) [1, 2, 3, (4 : Int)] 4 rfl (by simp) [[(2, 3)], [(0, 2), (3, 4)]] (by decide)
example := C40_groups [0, 2, 2, (5 : Int)] (by decide) (by decide) [some 1, some 0, some 2, none, some 4, some 5, some 1, some (-1)]
example := C40_unsorted [0, 2, 1, (5 : Int)] (by decide) [some 1, none]

end Scipp.Props
