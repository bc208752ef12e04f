import Verif.Lemmas.Binning2
namespace Scipp.Binning
open SubbinSizes
variable {E : Type}

/-! ### From input bins to their sizes -/

/-- Elements related one by one. -/
def Rows.Rel {α β : Type} (R : α → β → Prop) : {n : Nat} → Rows α n → Rows β n → Prop
  | 0, x, y => R x y
  | _ + 1, xs, ys => List.Forall₂ (Rows.Rel R) xs ys

theorem Rows.mapM_rel {α β : Type} (f : α → Except Err β) (R : α → β → Prop) : ∀ (n : Nat) (xs : Rows α n),
    (∀ x ∈ xs.flat, ∃ y, f x = .ok y ∧ R x y) → ∃ ys, xs.mapM f = .ok ys ∧ Rows.Rel R xs ys
  | 0, x, h => h x (List.mem_singleton.mpr rfl)
  | n + 1, xs, h => by
    obtain ⟨ys, h1, h2⟩ := mapM_forall₂ (Rows.mapM f) (Rows.Rel R) xs (by
      intro x hx
      exact Rows.mapM_rel f R n x (fun y hy => h y (List.mem_flatMap.mpr ⟨x, hx, hy⟩)))
    exact ⟨ys, h1, h2⟩

theorem Rows.rel_flat {α β : Type} (R : α → β → Prop) : ∀ (n : Nat) (xs : Rows α n) (ys : Rows β n), Rows.Rel R xs ys →
    List.Forall₂ R xs.flat ys.flat
  | 0, _, _, h => List.Forall₂.cons h List.Forall₂.nil
  | n + 1, xs, ys, h => by
    change List.Forall₂ R (List.flatMap Rows.flat xs) (List.flatMap Rows.flat ys)
    have h' : List.Forall₂ (Rows.Rel R (n := n)) xs ys := h
    induction h' with
    | nil => exact List.Forall₂.nil
    | cons h1 h2 ih =>
      rw [List.flatMap_cons, List.flatMap_cons]
      exact List.rel_append (Rows.rel_flat R n _ _ h1) (ih h2)

theorem Rows.rel_first {α β : Type} (R : α → β → Prop) (f : α → Int × Int) (g : β → Int × Int) (hfg : ∀ x y, R x y → f x = g y) :
    ∀ (n : Nat) (xs : Rows α n) (ys : Rows β n), Rows.Rel R xs ys → xs.first f = ys.first g
  | 0, _, _, h => by simp only [Rows.first]; rw [hfg _ _ h]
  | _ + 1, _, _, _ => rfl

theorem Rows.rel_last {α β : Type} (R : α → β → Prop) (f : α → Int × Int) (g : β → Int × Int) (hfg : ∀ x y, R x y → f x = g y) :
    ∀ (n : Nat) (xs : Rows α n) (ys : Rows β n), Rows.Rel R xs ys → xs.last f = ys.last g
  | 0, _, _, h => by simp only [Rows.last]; rw [hfg _ _ h]
  | n + 1, xs, ys, h => by
    have h' : List.Forall₂ (Rows.Rel R (n := n)) xs ys := h
    have : ∀ m : Int, List.foldl (fun m x => max m (Rows.last f x)) m xs = List.foldl (fun m x => max m (Rows.last g x)) m ys := by
      clear h
      induction h' with
      | nil => intro m; rfl
      | cons h1 _ ih =>
        intro m
        rw [List.foldl_cons, List.foldl_cons, ih, Rows.rel_last R f g hfg n _ _ h1]
    exact this 0

theorem Rows.rel_mono {α β : Type} (R : α → β → Prop) (f : α → Int × Int) (g : β → Int × Int) (hfg : ∀ x y, R x y → f x = g y) :
    ∀ (n : Nat) (xs : Rows α n) (ys : Rows β n), Rows.Rel R xs ys → xs.Mono f → ys.Mono g
  | 0, _, _, _, _ => trivial
  | n + 1, xs, ys, h, hm => by
    have h' : List.Forall₂ (Rows.Rel R (n := n)) xs ys := h
    obtain ⟨hm1, hm2⟩ := hm
    refine ⟨?_, ?_⟩
    · intro y hy
      obtain ⟨x, hx, hr⟩ := forall₂_right h' hy
      exact Rows.rel_mono R f g hfg n x y hr (hm1 x hx)
    · clear h hm1
      induction h' with
      | nil => exact List.Pairwise.nil
      | cons h1 h2 ih =>
        rw [List.pairwise_cons] at hm2 ⊢
        refine ⟨?_, ih hm2.2⟩
        intro y hy
        obtain ⟨x, hx, hr⟩ := forall₂_right h2 hy
        rw [← Rows.rel_first R f g hfg n _ _ h1, ← Rows.rel_first R f g hfg n _ _ hr, ← Rows.rel_last R f g hfg n _ _ h1,
          ← Rows.rel_last R f g hfg n _ _ hr]
        exact hm2.1 x hx

/-- `s` holds the sizes for input bin `b`. -/
def Counted (b : InputBin E) (s : SubbinSizes) : Prop :=
  s.offset = b.offset ∧ s.stop = b.offset + b.nbin ∧ ∀ p, s.val p = ((b.assigned p).length : Int)

/-! ### Writes of one input bin -/

theorem range_window {β : Type} (length a n : Nat) (h : a + n ≤ length) (f : Nat → List β)
    (h0 : ∀ p, p < a ∨ a + n ≤ p → f p = []) : (List.range length).flatMap f = (List.range n).flatMap fun i => f (a + i) := by
  obtain ⟨c, rfl⟩ := Nat.exists_eq_add_of_le h
  rw [List.range_add, List.range_add, List.flatMap_append, List.flatMap_append]
  have h1 : (List.range a).flatMap f = [] := by
    rw [List.flatMap_eq_nil_iff]
    intro p hp
    exact h0 p (Or.inl (List.mem_range.mp hp))
  have h2 : ((List.range c).map fun x => a + n + x).flatMap f = [] := by
    rw [List.flatMap_eq_nil_iff]
    intro p hp
    rw [List.mem_map] at hp
    obtain ⟨x, _, rfl⟩ := hp
    exact h0 _ (Or.inr (by omega))
  rw [h1, h2, List.nil_append, List.append_nil, List.flatMap_map]

theorem canon_eq (length : Nat) (b : InputBin E) (hb : b.Fits length) (o : SubbinSizes) (h1 : o.offset = b.offset)
    (h2 : o.stop = b.offset + b.nbin) (f : Int → Int) (hf : ∀ p, b.offset ≤ p → p < b.offset + b.nbin → o.val p = f p) :
    canon o.sizes b.events = (List.range length).flatMap fun (p : Nat) => numbered (f p) (b.assigned p) := by
  obtain ⟨hb1, hb2, hb3, hb4⟩ := hb
  have hlen : (o.sizes.length : Int) = b.nbin := by simp only [stop] at h2; omega
  obtain ⟨a, ha⟩ := Int.eq_ofNat_of_zero_le hb1
  rw [range_window length a o.sizes.length (by omega)]
  · simp only [canon]
    apply List.flatMap_congr
    intro i hi
    rw [List.mem_range] at hi
    have e : ((a + i : Nat) : Int) = b.offset + i := by push_cast; omega
    rw [e, assigned_eq]
    have hv := hf (b.offset + i) (by omega) (by omega)
    rw [← hv]
    simp only [val]
    rw [if_pos (by omega), show (b.offset + (i : Int) - o.offset).toNat = i by omega]
  · intro p hp
    rw [assigned_out b hb4 p (by omega)]
    rfl

theorem leaves_ok (length : Nat) : ∀ (bs : List (InputBin E)) (ss os : List SubbinSizes) (f : Int → Int),
    (∀ b ∈ bs, b.Fits length) → List.Forall₂ Counted bs ss → OffsOk f ss os →
    ∃ ws, ((bs.zip os).mapM fun bo => mapToBins bo.2.sizes bo.1.events) = .ok ws ∧
      ws.flatten.Perm ((List.range length).flatMap fun (p : Nat) => numbered (f p) (bs.flatMap fun b => b.assigned p))
  | [], _, os, f, _, h, ho => by
    cases h
    cases os with
    | nil => refine ⟨[], rfl, ?_⟩; simp [numbered]
    | cons o os => exact ho.elim
  | b :: bs, _, os, f, hfit, h, ho => by
    cases h with
    | cons h1 h2 =>
      rename_i s ss
      cases os with
      | nil => exact ho.elim
      | cons o os =>
        obtain ⟨ho1, ho2, ho3, ho4⟩ := ho
        obtain ⟨c1, c2, c3⟩ := h1
        obtain ⟨ws, h3, h4⟩ := leaves_ok length bs ss os _ (fun x hx => hfit x (List.mem_cons_of_mem _ hx)) h2 ho4
        have hb := hfit b (List.mem_cons_self ..)
        obtain ⟨w, h5, h6⟩ := mapToBins_ok o.sizes b.events (by
          intro ie hie
          have := hb.2.2.2 ie hie
          have hstop : o.stop = b.offset + b.nbin := by omega
          simp only [stop] at hstop
          omega)
        rw [canon_eq length b hb o (by omega) (by omega) f (fun p hp1 hp2 => ho3 p (by omega) (by omega))] at h6
        refine ⟨w :: ws, ?_, ?_⟩
        · simp only [List.zip_cons_cons, List.mapM_cons, h5, h3, bind, Except.bind, pure, Except.pure]
        · rw [List.flatten_cons]
          refine (h6.append h4).trans ?_
          refine (List.flatMap_append_perm _ _ _).trans ?_
          apply List.Perm.of_eq
          apply List.flatMap_congr
          intro p _
          rw [List.flatMap_cons, numbered_append, c3]

theorem flatMap_numbered (c : Nat → List E) (k : Int) : ∀ L : Nat,
    (List.range L).flatMap (fun p => numbered (k + ((List.range p).map fun q => ((c q).length : Int)).sum) (c p)) =
      numbered k ((List.range L).flatMap c) ∧
    (((List.range L).flatMap c).length : Int) = ((List.range L).map fun q => ((c q).length : Int)).sum
  | 0 => ⟨rfl, rfl⟩
  | L + 1 => by
    obtain ⟨h1, h2⟩ := flatMap_numbered c k L
    rw [List.range_succ, List.flatMap_append, List.flatMap_append, List.map_append, List.sum_append, h1, List.length_append]
    refine ⟨?_, ?_⟩
    · rw [numbered_append, h2]
      simp
    · push_cast
      rw [h2]
      simp

theorem counted_sum (bs : List (InputBin E)) (ss : List SubbinSizes) (h : List.Forall₂ Counted bs ss) (p : Int) :
    (ss.map fun s => s.val p).sum = ((bs.flatMap fun b => b.assigned p).length : Int) := by
  induction h with
  | nil => rfl
  | cons hc _ ih =>
    rw [List.map_cons, List.sum_cons, List.flatMap_cons, List.length_append, hc.2.2 p, ih]
    push_cast
    rfl

theorem mapSpan_ok {n : Nat} (length : Nat) (rows : Rows (InputBin E) n) (hfit : ∀ b ∈ rows.flat, b.Fits length)
    (hm : rows.Mono InputBin.range) :
    ∃ s ws, mapSpan rows = .ok (s, ws) ∧ 0 ≤ s.offset ∧ s.stop ≤ length ∧
      (∀ p, s.val p = ((binContent rows p).length : Int)) ∧
      s.sum = (((List.range length).flatMap fun (p : Nat) => binContent rows p).length : Int) ∧
      ws.flatten.Perm (numbered 0 ((List.range length).flatMap fun (p : Nat) => binContent rows p)) := by
  obtain ⟨sizes, h1, h2⟩ := Rows.mapM_rel countIndices (Counted (E := E)) n rows (by
    intro b hb
    obtain ⟨f1, f2, f3, f4⟩ := hfit b hb
    obtain ⟨s, hs, hs1, hs2, hs3⟩ := countIndices_ok b f1 f2 f4
    exact ⟨s, hs, hs1, hs2, hs3⟩)
  have hrange : ∀ (b : InputBin E) (s : SubbinSizes), Counted b s → b.range = srange s := by
    intro b s hc
    simp only [InputBin.range, srange, hc.1, hc.2.1]
  have hmono := Rows.rel_mono Counted InputBin.range srange hrange n rows sizes h2 hm
  have hflat := Rows.rel_flat Counted n rows sizes h2
  obtain ⟨r, h3, h4, h5, h6, h7, h8, h9⟩ := process_ok n sizes hmono (by
    intro s hs
    obtain ⟨b, hb, hc⟩ := forall₂_right hflat hs
    rw [hc.1]; exact (hfit b hb).1)
  obtain ⟨start, h10, h11, h12, h13⟩ := Props.C17_cumsum_exclusive r.2 h7
  obtain ⟨os, h14, h15⟩ := OffsOk.add sizes.flat r.1 _ start h4
  obtain ⟨ws, h16, h17⟩ := leaves_ok length rows.flat sizes.flat os _ hfit hflat h15
  -- contents and sizes
  have hval : ∀ p, r.2.val p = ((binContent rows p).length : Int) := by
    intro p
    rw [h5 p]
    exact counted_sum rows.flat sizes.flat hflat p
  have hstop : r.2.stop ≤ length := by
    rw [h9]
    have : ∀ (m : Nat) (x : Rows SubbinSizes m), (∀ s ∈ x.flat, s.stop ≤ (length : Int)) → x.last srange ≤ length := by
      intro m
      induction m with
      | zero => intro x hx; exact hx x (List.mem_singleton.mpr rfl)
      | succ m ih =>
        intro x hx
        have hgo : ∀ (l : List (Rows SubbinSizes m)) (acc : Int), acc ≤ length → (∀ y ∈ l, Rows.last srange y ≤ (length : Int)) →
            l.foldl (fun m x => max m (Rows.last srange x)) acc ≤ length := by
          intro l
          induction l with
          | nil => intro acc ha _; exact ha
          | cons y l ihl =>
            intro acc ha hl
            rw [List.foldl_cons]
            exact ihl _ (max_le ha (hl y (List.mem_cons_self ..))) (fun z hz => hl z (List.mem_cons_of_mem _ hz))
        refine hgo x 0 (by omega) ?_
        intro y hy
        exact ih y (fun s hs => hx s (List.mem_flatMap.mpr ⟨y, hy, hs⟩))
    apply this
    intro s hs
    obtain ⟨b, hb, hc⟩ := forall₂_right hflat hs
    rw [hc.2.1]; exact (hfit b hb).2.2.1
  -- totals from zero
  obtain ⟨a, ha⟩ := Int.eq_ofNat_of_zero_le h7
  have hzero : ∀ q : Nat, q < a → r.2.val (q : Int) = 0 := by
    intro q hq
    exact val_out _ _ (Or.inl (by omega))
  have htotal : ∀ k : Nat, total r.2.val r.2.offset k = ((List.range (a + k)).map fun (q : Nat) => r.2.val (q : Int)).sum := by
    intro k
    rw [List.range_add, List.map_append, List.sum_append, List.map_map]
    have : ((List.range a).map fun (q : Nat) => r.2.val (q : Int)).sum = 0 := by
      apply List.sum_eq_zero
      intro x hx
      rw [List.mem_map] at hx
      obtain ⟨q, hq, rfl⟩ := hx
      exact hzero q (List.mem_range.mp hq)
    rw [this, zero_add, total]
    congr 1
    apply List.map_congr_left
    intro i _
    simp only [Function.comp_apply]
    push_cast
    rw [ha]
  have hlenc : ∀ m, ((List.range m).map fun (q : Nat) => r.2.val (q : Int)).sum =
      ((List.range m).map fun (q : Nat) => ((binContent rows (q : Int)).length : Int)).sum := by
    intro m
    congr 1
    apply List.map_congr_left
    intro q _
    exact hval q
  refine ⟨r.2, ws, ?_, h7, hstop, hval, ?_, ?_⟩
  · simp only [mapSpan, h1, bind, Except.bind]
    rw [h3]
    simp only
    rw [h10]
    simp only
    rw [h14]
    simp only
    rw [h16]
    rfl
  · rw [Props.C17_sum, htotal, (flatMap_numbered (fun (p : Nat) => binContent rows p) 0 length).2, ← hlenc]
    have hle : a + r.2.sizes.length ≤ length := by simp only [stop] at hstop; omega
    obtain ⟨d, hd⟩ := Nat.exists_eq_add_of_le hle
    conv_rhs => rw [hd, List.range_add, List.map_append, List.sum_append, List.map_map]
    have : (List.map ((fun (q : Nat) => r.2.val (q : Int)) ∘ fun x => a + r.2.sizes.length + x) (List.range d)).sum = 0 := by
      apply List.sum_eq_zero
      intro x hx
      rw [List.mem_map] at hx
      obtain ⟨q, _, rfl⟩ := hx
      simp only [Function.comp_apply]
      exact val_out _ _ (Or.inr (by simp only [stop]; push_cast; omega))
    rw [this, add_zero]
  · refine h17.trans (List.Perm.of_eq ?_)
    rw [← (flatMap_numbered (fun (p : Nat) => binContent rows p) 0 length).1]
    apply List.flatMap_congr
    intro p _
    change numbered (0 + start.val p) (binContent rows p) = _
    by_cases hp : (p : Int) < r.2.offset ∨ r.2.stop ≤ p
    · have h0 : r.2.val p = 0 := val_out _ _ hp
      rw [hval] at h0
      have : binContent rows p = [] := List.length_eq_zero_iff.mp (by omega)
      rw [this]; rfl
    · push Not at hp
      obtain ⟨i, hi⟩ := Nat.exists_eq_add_of_le (show a ≤ p by omega)
      have := h13 i (by simp only [stop] at hp; omega)
      rw [htotal, hlenc, ha] at this
      subst hi
      push_cast
      rw [this]

end Scipp.Binning
