import Verif.Lemmas.Binning
import Verif.Props.SubbinSizes
namespace Scipp.Binning
open SubbinSizes
variable {E : Type}

/-! ### Counting -/

theorem countLoop_ok (is : List Int) : ∀ counts : List Int, (∀ i ∈ is, i < counts.length) →
    ∃ r, countLoop counts is = .ok r ∧ r.length = counts.length ∧
      ∀ j : Nat, j < counts.length → r.getD j 0 = counts.getD j 0 + ((is.filter fun i => i == (j : Int)).length : Int) := by
  induction is with
  | nil => intro counts _; exact ⟨counts, rfl, rfl, fun j _ => by simp⟩
  | cons i is ih =>
    intro counts h
    by_cases hi : i < 0
    · obtain ⟨r, h1, h2, h3⟩ := ih counts (fun x hx => h x (List.mem_cons_of_mem _ hx))
      refine ⟨r, by simp only [countLoop, if_pos hi, h1], h2, ?_⟩
      intro j hj
      rw [h3 j hj, List.filter_cons_of_neg (by simp only [beq_iff_eq]; omega)]
    · obtain ⟨n, rfl⟩ := Int.eq_ofNat_of_zero_le (Int.not_lt.mp hi)
      have hn : n < counts.length := by
        have := h (n : Int) (List.mem_cons_self ..)
        omega
      obtain ⟨hg, hs⟩ := direct_step hn
      obtain ⟨r, h1, h2, h3⟩ := ih (counts.set n (counts.getD n 0 + 1))
        (fun x hx => by rw [List.length_set]; exact h x (List.mem_cons_of_mem _ hx))
      rw [List.length_set] at h2 h3
      refine ⟨r, by simp only [countLoop, if_neg hi, Int.ofNat_eq_natCast, hg, hs, h1], h2, ?_⟩
      intro j hj
      rw [h3 j hj, getD_set _ _ _ _ hn]
      by_cases e : j = n
      · subst e
        rw [if_pos rfl, List.filter_cons_of_pos (by simp), List.length_cons]
        push_cast; ring
      · rw [if_neg e, List.filter_cons_of_neg (by simp only [Int.ofNat_eq_natCast, beq_iff_eq]; omega)]

theorem assigned_out (b : InputBin E) (hlt : ∀ ie ∈ b.events, ie.1 < b.nbin) (p : Int)
    (h : p < b.offset ∨ b.offset + b.nbin ≤ p) : b.assigned p = [] := by
  simp only [InputBin.assigned, List.map_eq_nil_iff, List.filter_eq_nil_iff, decide_eq_true_eq]
  intro ie hie hc
  have := hlt ie hie
  omega

theorem assigned_eq (b : InputBin E) (n : Nat) :
    b.assigned (b.offset + n) = (b.events.filter fun ie => ie.1 == (n : Int)).map (·.2) := by
  simp only [InputBin.assigned]
  congr 1
  apply List.filter_congr
  intro ie _
  by_cases h : ie.1 = (n : Int)
  · simp [h]
  · have : (ie.1 == (n : Int)) = false := by simpa using h
    rw [this]
    simp only [decide_eq_false_iff_not]
    omega

theorem countIndices_ok (b : InputBin E) (h0 : 0 ≤ b.offset) (hn : 0 ≤ b.nbin) (hlt : ∀ ie ∈ b.events, ie.1 < b.nbin) :
    ∃ s, countIndices b = .ok s ∧ s.offset = b.offset ∧ s.stop = b.offset + b.nbin ∧ ∀ p, s.val p = ((b.assigned p).length : Int) := by
  obtain ⟨r, h1, h2, h3⟩ := countLoop_ok (b.events.map (·.1)) (List.replicate b.nbin.toNat 0) (by
    intro i hi
    rw [List.mem_map] at hi
    obtain ⟨ie, hie, rfl⟩ := hi
    have := hlt ie hie
    rw [List.length_replicate]; omega)
  rw [List.length_replicate] at h2 h3
  refine ⟨⟨b.offset, r⟩, ?_, rfl, by simp only [stop, h2]; omega, ?_⟩
  · simp only [countIndices, if_neg (show ¬ b.nbin < 0 by omega), h1, bind, Except.bind, mk', if_neg (show ¬ b.offset < 0 by omega)]
  · intro p
    by_cases hp : p < b.offset ∨ b.offset + b.nbin ≤ p
    · rw [assigned_out b hlt p hp, val_out _ _ (by simp only [stop, h2]; omega)]; rfl
    · have hp1 : b.offset ≤ p := by omega
      obtain ⟨n, hn'⟩ := Int.eq_ofNat_of_zero_le (show 0 ≤ p - b.offset by omega)
      have hnp : p = b.offset + n := by omega
      subst hnp
      rw [assigned_eq]
      simp only [val]
      rw [if_pos hp1, show (b.offset + (n : Int) - b.offset).toNat = n by omega, h3 n (by omega), getD_replicate, zero_add,
        List.filter_map, List.length_map, List.length_map]
      rfl

/-! ### Offsets -/

/-- `offs` lists the sums `f` plus the sizes of all previous elements of `flat`, each over the range of the element. -/
def OffsOk : (Int → Int) → List SubbinSizes → List SubbinSizes → Prop
  | _, [], [] => True
  | f, s :: ss, o :: os => o.offset = s.offset ∧ o.stop = s.stop ∧ (∀ p, s.offset ≤ p → p < s.stop → o.val p = f p) ∧
    OffsOk (fun p => f p + s.val p) ss os
  | _, _, _ => False

theorem OffsOk.congr : ∀ (ss os : List SubbinSizes) (f g : Int → Int), OffsOk f ss os →
    (∀ s ∈ ss, ∀ p, s.offset ≤ p → p < s.stop → f p = g p) → OffsOk g ss os
  | [], [], _, _, _, _ => trivial
  | [], _ :: _, _, _, h, _ => h.elim
  | _ :: _, [], _, _, h, _ => h.elim
  | s :: ss, o :: os, f, g, h, hfg => by
    obtain ⟨h1, h2, h3, h4⟩ := h
    refine ⟨h1, h2, fun p hp1 hp2 => by rw [h3 p hp1 hp2, hfg s (List.mem_cons_self ..) p hp1 hp2], ?_⟩
    refine OffsOk.congr ss os _ _ h4 ?_
    intro t ht p hp1 hp2
    rw [hfg t (List.mem_cons_of_mem _ ht) p hp1 hp2]

theorem OffsOk.append : ∀ (a oa b ob : List SubbinSizes) (f : Int → Int), OffsOk f a oa →
    OffsOk (fun p => f p + (a.map fun s => s.val p).sum) b ob → OffsOk f (a ++ b) (oa ++ ob)
  | [], [], b, ob, f, _, h => by simpa using h
  | [], _ :: _, _, _, _, h, _ => h.elim
  | _ :: _, [], _, _, _, h, _ => h.elim
  | s :: ss, o :: os, b, ob, f, h, hb => by
    obtain ⟨h1, h2, h3, h4⟩ := h
    refine ⟨h1, h2, h3, OffsOk.append ss os b ob _ h4 ?_⟩
    have : (fun p => f p + ((s :: ss).map fun s => s.val p).sum) =
        fun p => f p + s.val p + (ss.map fun s => s.val p).sum := by
      funext p; simp only [List.map_cons, List.sum_cons]; ring
    rw [this] at hb
    exact hb

theorem OffsOk.add : ∀ (ss os : List SubbinSizes) (f : Int → Int) (c : SubbinSizes), OffsOk f ss os →
    ∃ os', addToAll os c = .ok os' ∧ OffsOk (fun p => f p + c.val p) ss os'
  | [], [], _, _, _ => ⟨[], rfl, trivial⟩
  | [], _ :: _, _, _, h => h.elim
  | _ :: _, [], _, _, h => h.elim
  | s :: ss, o :: os, f, c, h => by
    obtain ⟨h1, h2, h3, h4⟩ := h
    obtain ⟨r, ha, hr1, hr2, hr3⟩ := addIntersection_ok o c
    obtain ⟨os', hb1, hb2⟩ := OffsOk.add ss os _ c h4
    refine ⟨r :: os', ?_, ?_⟩
    · simp only [addToAll] at hb1 ⊢
      simp only [List.mapM_cons, ha, hb1, bind, Except.bind, pure, Except.pure]
    · refine ⟨hr1.trans h1, hr2.trans h2, ?_, ?_⟩
      · intro p hp1 hp2
        rw [hr3 p (by omega) (by omega), h3 p hp1 hp2]
      · have : (fun p => f p + c.val p + s.val p) = fun p => f p + s.val p + c.val p := by funext p; ring
        rw [this]; exact hb2

theorem OffsOk.of_index : ∀ (xs ys : List SubbinSizes) (f : Int → Int), ys.length = xs.length →
    (∀ i (hi : i < xs.length), ∃ y, ys[i]? = some y ∧ y.offset = xs[i].offset ∧ y.stop = xs[i].stop ∧
        ∀ p, xs[i].offset ≤ p → p < xs[i].stop → y.val p = f p + ((xs.take i).map fun x => x.val p).sum) → OffsOk f xs ys
  | [], [], _, _, _ => trivial
  | [], _ :: _, _, h, _ => by simp at h
  | _ :: _, [], _, h, _ => by simp at h
  | x :: xs, y :: ys, f, hl, h => by
    obtain ⟨y', h1, h2, h3, h4⟩ := h 0 (by simp)
    simp only [List.getElem?_cons_zero, Option.some.injEq] at h1
    subst h1
    simp only [List.getElem_cons_zero, List.take_zero, List.map_nil, List.sum_nil, add_zero] at h2 h3 h4
    refine ⟨h2, h3, h4, OffsOk.of_index xs ys _ (by simpa using hl) ?_⟩
    intro i hi
    obtain ⟨z, h5, h6, h7, h8⟩ := h (i + 1) (by simpa using hi)
    simp only [List.getElem?_cons_succ] at h5
    simp only [List.getElem_cons_succ] at h6 h7 h8
    refine ⟨z, h5, h6, h7, ?_⟩
    intro p hp1 hp2
    rw [h8 p hp1 hp2, List.take_succ_cons, List.map_cons, List.sum_cons]
    ring

theorem sumSizes_go : ∀ (xs : List SubbinSizes) (acc : SubbinSizes), acc.offset = 0 → (∀ x ∈ xs, 0 ≤ x.offset) →
    ∃ r, xs.foldlM SubbinSizes.addAssign acc = .ok r ∧ r.offset = 0 ∧ r.stop = xs.foldl (fun m x => max m x.stop) acc.stop ∧
      ∀ p, r.val p = acc.val p + (xs.map fun x => x.val p).sum
  | [], acc, h0, _ => ⟨acc, rfl, h0, rfl, fun p => by simp⟩
  | x :: xs, acc, h0, h => by
    have hx := h x (List.mem_cons_self ..)
    obtain ⟨r, h1, h2, h3, h4⟩ := addAssign_ok acc x (by omega) hx
    obtain ⟨r', h5, h6, h7, h8⟩ := sumSizes_go xs r (by omega) (fun y hy => h y (List.mem_cons_of_mem _ hy))
    refine ⟨r', ?_, h6, ?_, ?_⟩
    · rw [List.foldlM_cons, h1]
      exact h5
    · rw [h7, h3]; rfl
    · intro p
      rw [h8, h4, List.map_cons, List.sum_cons]; ring

theorem sumSizes_ok (xs : List SubbinSizes) (h : ∀ x ∈ xs, 0 ≤ x.offset) :
    ∃ r, sumSizes xs = .ok r ∧ r.offset = 0 ∧ r.stop = xs.foldl (fun m x => max m x.stop) 0 ∧
      ∀ p, r.val p = (xs.map fun x => x.val p).sum := by
  obtain ⟨r, h1, h2, h3, h4⟩ := sumSizes_go xs ⟨0, []⟩ rfl h
  refine ⟨r, h1, h2, h3, fun p => ?_⟩
  rw [h4 p, val_out _ _ (by simp only [stop, List.length_nil]; omega)]; ring

/-- Range of stored sizes. -/
def srange (s : SubbinSizes) : Int × Int := (s.offset, s.stop)

/-- What `process` returns. -/
def ProcOk {n : Nat} (row : Rows SubbinSizes n) (r : List SubbinSizes × SubbinSizes) : Prop :=
  OffsOk (fun _ => 0) row.flat r.1 ∧ (∀ p, r.2.val p = (row.flat.map fun s => s.val p).sum) ∧
  (∀ s ∈ row.flat, r.2.offset ≤ s.offset ∧ s.stop ≤ r.2.stop) ∧ 0 ≤ r.2.offset ∧
  r.2.offset = row.first srange ∧ r.2.stop = row.last srange

theorem foldl_max_le {α : Type} (g : α → Int) (xs : List α) (m : Int) :
    m ≤ xs.foldl (fun m x => max m (g x)) m ∧ ∀ x ∈ xs, g x ≤ xs.foldl (fun m x => max m (g x)) m := by
  induction xs generalizing m with
  | nil => simp
  | cons y ys ih =>
    obtain ⟨h1, h2⟩ := ih (max m (g y))
    simp only [List.foldl_cons]
    refine ⟨le_trans (le_max_left _ _) h1, ?_⟩
    intro x hx
    rcases List.mem_cons.mp hx with rfl | hx
    · exact le_trans (le_max_right _ _) h1
    · exact h2 x hx

theorem forall₂_right {α β : Type} {R : α → β → Prop} {xs : List α} {ys : List β} (h : List.Forall₂ R xs ys) {y : β}
    (hy : y ∈ ys) : ∃ x ∈ xs, R x y := by
  induction h with
  | nil => cases hy
  | cons h3 _ ih =>
    rcases List.mem_cons.mp hy with rfl | hq
    · exact ⟨_, List.mem_cons_self .., h3⟩
    · obtain ⟨row', hm, hr⟩ := ih hq
      exact ⟨row', List.mem_cons_of_mem _ hm, hr⟩

theorem forall₂_left {α β : Type} {R : α → β → Prop} {xs : List α} {ys : List β} (h : List.Forall₂ R xs ys) {x : α}
    (hx : x ∈ xs) : ∃ y ∈ ys, R x y := by
  induction h with
  | nil => cases hx
  | cons h3 _ ih =>
    rcases List.mem_cons.mp hx with rfl | hq
    · exact ⟨_, List.mem_cons_self .., h3⟩
    · obtain ⟨row', hm, hr⟩ := ih hq
      exact ⟨row', List.mem_cons_of_mem _ hm, hr⟩

/-- Combination of the children of a node. -/
theorem node_combine {n : Nat} : ∀ (rows : List (Rows SubbinSizes n)) (rs : List (List SubbinSizes × SubbinSizes))
    (cs : List SubbinSizes) (f : Int → Int), List.Forall₂ ProcOk rows rs → OffsOk f (rs.map (·.2)) cs →
    ∃ offs, ((rs.zip cs).mapM fun rc => addToAll rc.1.1 rc.2) = .ok offs ∧ OffsOk f (rows.flatMap Rows.flat) offs.flatten
  | [], _, cs, f, h, hc => by
    cases h
    cases cs with
    | nil => exact ⟨[], rfl, trivial⟩
    | cons c cs => exact hc.elim
  | row :: rows, _, cs, f, h, hc => by
    cases h with
    | cons h1 h2 =>
      rename_i r rs
      cases cs with
      | nil => exact hc.elim
      | cons c cs =>
        obtain ⟨hc1, hc2, hc3, hc4⟩ := hc
        obtain ⟨hp1, hp2, hp3, hp4, _, _⟩ := h1
        obtain ⟨os', ha, hb⟩ := OffsOk.add row.flat r.1 _ c hp1
        obtain ⟨offs, ho1, ho2⟩ := node_combine rows rs cs _ h2 hc4
        refine ⟨os' :: offs, ?_, ?_⟩
        · simp only [List.zip_cons_cons, List.mapM_cons, ha, ho1, bind, Except.bind, pure, Except.pure]
        · rw [List.flatMap_cons, List.flatten_cons]
          refine OffsOk.append _ _ _ _ _ ?_ ?_
          · refine OffsOk.congr _ _ _ _ hb ?_
            intro s hs p hp1' hp2'
            obtain ⟨hr1, hr2⟩ := hp3 s hs
            rw [hc3 p (by dsimp only; omega) (by dsimp only; omega), zero_add]
          · have : (fun p => f p + r.2.val p) = fun p => f p + (row.flat.map fun s => s.val p).sum := by
              funext p; rw [hp2]
            rw [this] at ho2
            exact ho2

theorem mapM_forall₂ {α β : Type} (f : α → Except Err β) (R : α → β → Prop) : ∀ (xs : List α),
    (∀ x ∈ xs, ∃ y, f x = .ok y ∧ R x y) → ∃ ys, xs.mapM f = .ok ys ∧ List.Forall₂ R xs ys
  | [], _ => ⟨[], rfl, List.Forall₂.nil⟩
  | x :: xs, h => by
    obtain ⟨y, h1, h2⟩ := h x (List.mem_cons_self ..)
    obtain ⟨ys, h3, h4⟩ := mapM_forall₂ f R xs (fun z hz => h z (List.mem_cons_of_mem _ hz))
    refine ⟨y :: ys, ?_, List.Forall₂.cons h2 h4⟩
    simp only [List.mapM_cons, h1, h3, bind, Except.bind, pure, Except.pure]

theorem val_flat_sum {n : Nat} (rows : List (Rows SubbinSizes n)) (rs : List (List SubbinSizes × SubbinSizes))
    (h : List.Forall₂ ProcOk rows rs) (p : Int) :
    ((rs.map (·.2)).map fun s => s.val p).sum = ((rows.flatMap Rows.flat).map fun s => s.val p).sum := by
  induction h with
  | nil => rfl
  | cons h1 _ ih =>
    rw [List.map_cons, List.map_cons, List.sum_cons, List.flatMap_cons, List.map_append, List.sum_append, ih, h1.2.1]

theorem last_eq {n : Nat} (rows : List (Rows SubbinSizes n)) (rs : List (List SubbinSizes × SubbinSizes))
    (h : List.Forall₂ ProcOk rows rs) : ∀ m : Int, (rs.map (·.2)).foldl (fun m x => max m x.stop) m =
      rows.foldl (fun m x => max m (Rows.last srange x)) m := by
  induction h with
  | nil => intro m; rfl
  | cons h1 _ ih =>
    intro m
    rw [List.map_cons, List.foldl_cons, List.foldl_cons, ih, h1.2.2.2.2.2]

theorem pairwise_eq {n : Nat} (rows : List (Rows SubbinSizes n)) (rs : List (List SubbinSizes × SubbinSizes))
    (h : List.Forall₂ ProcOk rows rs)
    (hp : rows.Pairwise fun a b => Rows.first srange a ≤ Rows.first srange b ∧ Rows.last srange a ≤ Rows.last srange b) :
    (rs.map (·.2)).Pairwise fun a b => a.offset ≤ b.offset ∧ a.stop ≤ b.stop := by
  induction h with
  | nil => exact List.Pairwise.nil
  | @cons row r rows rs h1 h2 ih =>
    rw [List.pairwise_cons] at hp
    rw [List.map_cons, List.pairwise_cons]
    refine ⟨?_, ih hp.2⟩
    intro b hb
    rw [List.mem_map] at hb
    obtain ⟨q, hq, rfl⟩ := hb
    obtain ⟨row', hm, hr⟩ := forall₂_right h2 hq
    have := hp.1 row' hm
    rw [h1.2.2.2.2.1, h1.2.2.2.2.2, hr.2.2.2.2.1, hr.2.2.2.2.2]
    exact this

theorem process_ok : ∀ (n : Nat) (rows : Rows SubbinSizes n), rows.Mono srange → (∀ s ∈ rows.flat, 0 ≤ s.offset) →
    ∃ r, process rows = .ok r ∧ ProcOk rows r
  | 0, s, _, h0 => by
    have h0' : 0 ≤ SubbinSizes.offset s := h0 s (List.mem_singleton.mpr rfl)
    refine ⟨([SubbinSizes.assign s 0], s), rfl, ⟨?_, ?_, ?_, h0', rfl, rfl⟩⟩
    · refine ⟨rfl, ?_, ?_, trivial⟩
      · change (SubbinSizes.assign s 0).stop = SubbinSizes.stop s
        simp [stop, assign]
      · intro p _ _
        exact val_assign_zero s p
    · intro p
      change SubbinSizes.val s p = ([SubbinSizes.val s p]).sum
      simp
    · intro t ht
      have : t = s := List.mem_singleton.mp ht
      subst this
      exact ⟨le_refl _, le_refl _⟩
  | n + 1, rows, hm, h0 => by
    obtain ⟨hm1, hm2⟩ := hm
    obtain ⟨rs, h1, h2⟩ := mapM_forall₂ process ProcOk rows (by
      intro row hrow
      refine process_ok n row (hm1 row hrow) ?_
      intro s hs
      exact h0 s (List.mem_flatMap.mpr ⟨row, hrow, hs⟩))
    have hpos : ∀ x ∈ rs.map (·.2), 0 ≤ SubbinSizes.offset x := by
      intro x hx
      rw [List.mem_map] at hx
      obtain ⟨q, hq, rfl⟩ := hx
      obtain ⟨_, _, h3⟩ := forall₂_right h2 hq
      exact h3.2.2.2.1
    obtain ⟨cs, h3, h4, h5⟩ := Props.C17_scan_list_partial (rs.map (·.2)) (by
      have := pairwise_eq rows rs h2 hm2
      simpa only [stop] using this)
    have hcs : OffsOk (fun _ => 0) (rs.map (·.2)) cs := by
      refine OffsOk.of_index _ _ _ h4 ?_
      intro i hi
      obtain ⟨y, e1, e2, e3, e4⟩ := h5 i hi
      refine ⟨y, e1, e2, by simp only [stop, e2, e3], ?_⟩
      intro p hp1 hp2
      rw [e4 p hp1 hp2, zero_add]
    obtain ⟨offs, h6, h7⟩ := node_combine rows rs cs _ h2 hcs
    obtain ⟨sum, h8, h9, h10, h11⟩ := sumSizes_ok (rs.map (·.2)) hpos
    refine ⟨(offs.flatten, sum), ?_, ⟨h7, ?_, ?_, by simp only; omega, h9, ?_⟩⟩
    · simp only [process]
      rw [h1]
      simp only [bind, Except.bind]
      rw [h3]
      simp only
      rw [h6]
      simp only
      rw [h8]
      rfl
    · intro p
      simp only
      rw [h11 p, val_flat_sum rows rs h2 p]; rfl
    · intro s hs
      simp only
      refine ⟨by rw [h9]; exact h0 s hs, ?_⟩
      obtain ⟨row, hrow, hs'⟩ := List.mem_flatMap.mp hs
      rw [h10]
      obtain ⟨q, hq, hpr⟩ := forall₂_left h2 hrow
      exact le_trans (hpr.2.2.1 s hs').2 ((foldl_max_le SubbinSizes.stop (rs.map (·.2)) 0).2 q.2 (List.mem_map.mpr ⟨q, hq, rfl⟩))
    · simp only
      rw [h10, last_eq rows rs h2]; rfl

end Scipp.Binning
