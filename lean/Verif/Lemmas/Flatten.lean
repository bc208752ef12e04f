import Verif.Lemmas.View2

namespace Scipp
open Sizes

/-! ### contiguity of a group of dims -/

/-- Adjacent dims of the group are contiguous with respect to each other. -/
def Contig : Dims → List Int → Prop
  | _ :: q :: s, x :: y :: st => x = q.2 * y ∧ Contig (q :: s) (y :: st)
  | _, _ => True

theorem contig_rowMajor : ∀ (s : Dims) (x : Int), Contig s ((rowMajor (shape s)).map (x * ·))
  | [], _ => by simp [Contig]
  | [p], x => by simp [Contig]
  | p :: q :: s, x => by
    have ih := contig_rowMajor (q :: s) x
    have e1 : rowMajor (shape (q :: s)) = Dims.volume s :: rowMajor (shape s) := by simp
    have e2 : rowMajor (shape (p :: q :: s)) =
        Dims.volume (q :: s) :: Dims.volume s :: rowMajor (shape s) := by
      rw [shape_cons, rowMajor_shape_cons, e1]
    rw [e1] at ih
    rw [e2]
    refine ⟨?_, ih⟩
    simp only [volume_cons]; ring

theorem rowMajor_append (a b : Dims) : rowMajor (shape (a ++ b)) =
    (rowMajor (shape a)).map (Dims.volume b * ·) ++ rowMajor (shape b) := by
  induction a with
  | nil => simp
  | cons p a ih =>
    simp only [List.cons_append, shape_cons, rowMajor_shape_cons, ih, volume_append, List.map_cons]
    congr 1; ring

/-- A contiguous group is a scaled row-major group. -/
theorem contig_eq : ∀ (s : Dims) (st : List Int) (h : st ≠ []), st.length = s.length → Contig s st →
    st = (rowMajor (shape s)).map (st.getLast h * ·)
  | [], st, h, hl, _ => by simp at hl; contradiction
  | [p], [x], _, _, _ => by
    simp [rowMajor, rowMajorAux]
  | [p], x :: y :: st, _, hl, _ => by simp at hl
  | p :: q :: s, [], h, _, _ => by contradiction
  | p :: q :: s, [x], _, hl, _ => by simp at hl
  | p :: q :: s, x :: y :: st, h, hl, hc => by
    obtain ⟨h1, h2⟩ := hc
    have ih := contig_eq (q :: s) (y :: st) (by simp) (by simpa using hl) h2
    rw [shape_cons, rowMajor_shape_cons, List.map_cons, List.getLast_cons (by simp)]
    rw [← ih]
    congr 1
    have hy : y = (y :: st).getLast (by simp) * Dims.volume s := by
      have := congrArg (fun l => l.headD 0) ih
      simpa [shape_cons, rowMajor_shape_cons] using this
    rw [h1, volume_cons]
    conv_lhs => rw [hy]
    ring

theorem contig_addr {s : Dims} {st : List Int} (h : st ≠ []) (hl : st.length = s.length) (hc : Contig s st)
    (c : Dim → Int) : addrAux s st c = position s c * st.getLast h := by
  conv_lhs => rw [contig_eq s st h hl hc]
  rw [addrAux_mul, position_eq]; ring

/-! ### the flatten loop -/

theorem getLast_mem_aux {st : List Int} (h : st ≠ []) : st.getLast h ∈ st := List.getLast_mem h

theorem replaceKey_mid {pre post : Sizes} {d d' : Dim} {n : Int} (h : d ∉ labels pre)
    (h1 : d' ∉ labels pre) (h2 : d' ∉ labels post) :
    replaceKey (pre ++ (d, n) :: post) d d' = .ok (pre ++ (d', n) :: post) := by
  have : ¬ (d ≠ d' ∧ contains (pre ++ (d, n) :: post) d' = true) := by
    rintro ⟨h3, h4⟩
    rw [contains_iff] at h4
    simp [h1, h2] at h4
    exact h3 h4.symm
  rw [replaceKey, if_neg this, setKey_mid h]

theorem replaceKey_mid_error {pre post : Sizes} {d d' : Dim} {n : Int} (hd : d ≠ d')
    (h1 : d' ∈ labels pre ∨ d' ∈ labels post) :
    replaceKey (pre ++ (d, n) :: post) d d' = .error .dimension := by
  rw [replaceKey, if_pos]
  refine ⟨hd, contains_iff.2 ?_⟩
  simp only [labels_append, labels_cons, List.mem_append, List.mem_cons]
  tauto

theorem flattenLoop_spec (toDim : Dim) (pre post : Dims) (spre spost : List Int) (off : Int) (ro : Bool)
    (hpre : spre.length = pre.length) : ∀ (mid : Dims) (smid : List Int) (size : Int) (hne : smid ≠ []),
    smid.length = mid.length → 0 ≤ size → Sizes.WF (pre ++ mid ++ post) →
    (toDim ∈ labels (pre ++ mid ++ post) → toDim ∈ labels mid) →
    (Contig mid smid → flattenLoop pre.length toDim (labels mid) size
        ⟨pre ++ mid ++ post, spre ++ smid ++ spost, off, ro⟩ =
      .ok (some ⟨pre ++ (toDim, size * Dims.volume mid) :: post, spre ++ smid.getLast hne :: spost, off, ro⟩)) ∧
    (¬ Contig mid smid → flattenLoop pre.length toDim (labels mid) size
        ⟨pre ++ mid ++ post, spre ++ smid ++ spost, off, ro⟩ = .ok none)
  | [], smid, _, hne, hl, _, _, _ => by simp at hl; contradiction
  | [p], [x], size, _, _, hs, hw, ht => by
    refine ⟨fun _ => ?_, fun h => absurd trivial h⟩
    obtain ⟨l, n⟩ := p
    have e1 : pre ++ [(l, n)] ++ post = pre ++ (l, n) :: post := by simp
    have e2 : spre ++ [x] ++ spost = spre ++ x :: spost := by simp
    simp only [e1, e2] at hw ht ⊢
    obtain ⟨h1, h2, h3, h4, h5⟩ := nodup_mid hw.1
    have hn : 0 ≤ n := hw.2 (l, n) (by simp)
    have hsz : ¬ size * n < 0 := not_lt.2 (mul_nonneg hs hn)
    have hg : (shape (pre ++ (l, n) :: post)).getD pre.length 0 = n := by
      rw [shape_append, shape_cons]; exact getD_mid _ _ _ _ (by simp) _
    simp only [labels_cons, labels_nil, flattenLoop, hg, resize, hsz, if_false, assign_mid h1, bind, Except.bind]
    have h1' : toDim ∉ labels pre := by
      intro e
      have := ht (by simp [e])
      simp at this
      exact h1 (this ▸ e)
    have h2' : toDim ∉ labels post := by
      intro e
      have := ht (by simp [e])
      simp at this
      exact h2 (this ▸ e)
    rw [replaceKey_mid h1 h1' h2']
    simp
  | [p], [], _, hne, _, _, _, _ => by contradiction
  | [p], x :: y :: st, _, _, hl, _, _, _ => by simp at hl
  | p :: q :: s, [], _, hne, _, _, _, _ => by contradiction
  | p :: q :: s, [x], _, _, hl, _, _, _ => by simp at hl
  | p :: q :: s, x :: y :: st, size, _, hl, hs, hw, ht => by
    obtain ⟨l, n⟩ := p
    have e1 : pre ++ (l, n) :: q :: s ++ post = pre ++ (l, n) :: (q :: s ++ post) := by simp
    have e2 : spre ++ x :: y :: st ++ spost = spre ++ x :: (y :: st ++ spost) := by simp
    simp only [e1, e2] at hw ht ⊢
    obtain ⟨h1, h2, h3, h4, h5⟩ := nodup_mid hw.1
    have hn : 0 ≤ n := hw.2 (l, n) (by simp)
    have g1 : (shape (pre ++ (l, n) :: (q :: s ++ post))).getD pre.length 0 = n := by
      rw [shape_append, shape_cons]; exact getD_mid _ _ _ _ (by simp) _
    have g2 : (shape (pre ++ (l, n) :: (q :: s ++ post))).getD (pre.length + 1) 0 = q.2 := by
      have : pre ++ (l, n) :: (q :: s ++ post) = (pre ++ [(l, n)]) ++ q :: (s ++ post) := by simp
      rw [this, shape_append, shape_cons]; exact getD_mid _ _ _ _ (by simp) _
    have g3 : (spre ++ x :: (y :: st ++ spost)).getD pre.length 0 = x := getD_mid _ _ _ _ hpre _
    have g4 : (spre ++ x :: (y :: st ++ spost)).getD (pre.length + 1) 0 = y := by
      have : spre ++ x :: (y :: st ++ spost) = (spre ++ [x]) ++ y :: (st ++ spost) := by simp
      rw [this]; exact getD_mid _ _ _ _ (by simp [hpre]) _
    simp only [labels_cons]
    rw [flattenLoop]
    simp only [g1, g2, g3, g4]
    have hw' : Sizes.WF (pre ++ (q :: s) ++ post) := by
      apply sublist_WF _ hw
      rw [List.append_assoc]
      exact List.Sublist.append_left (List.sublist_cons_self _ _) _
    have hsz : 0 ≤ size * n := mul_nonneg hs hn
    -- the target label may be the one just erased
    by_cases hc : x = q.2 * y
    · rw [if_neg (by simpa using hc)]
      simp only [bind, Except.bind, erase_mid h1, eraseIdx_mid spre x _ _ hpre]
      by_cases htl : toDim = l
      · -- not among the remaining labels at all
        have hnot : toDim ∉ labels (pre ++ (q :: s) ++ post) := by
          rw [htl]
          simp only [labels_append, List.mem_append, not_or] at h2 ⊢
          exact ⟨⟨h1, h2.1⟩, h2.2⟩
        obtain ⟨i1, i2⟩ := flattenLoop_spec toDim pre post spre spost off ro hpre (q :: s) (y :: st) (size * n)
          (by simp) (by simpa using hl) hsz hw' (fun e => absurd e hnot)
        simp only [labels_cons, List.append_assoc] at i1 i2
        constructor
        · intro hC
          have := i1 hC.2
          rw [this]
          simp only [List.getLast_cons_cons, volume_cons, Int.mul_assoc]
        · intro hC
          exact i2 (fun h => hC ⟨hc, h⟩)
      · obtain ⟨i1, i2⟩ := flattenLoop_spec toDim pre post spre spost off ro hpre (q :: s) (y :: st) (size * n)
          (by simp) (by simpa using hl) hsz hw' (by
            intro e
            have := ht (by
              simp only [labels_append, labels_cons, List.mem_append, List.mem_cons] at e ⊢
              tauto)
            simp only [labels_cons, List.mem_cons] at this ⊢
            exact this.resolve_left htl)
        simp only [labels_cons, List.append_assoc] at i1 i2
        constructor
        · intro hC
          have := i1 hC.2
          rw [this]
          simp only [List.getLast_cons_cons, volume_cons, Int.mul_assoc]
        · intro hC
          exact i2 (fun h => hC ⟨hc, h⟩)
    · rw [if_pos (by simpa using hc)]
      exact ⟨fun hC => absurd hC.1 hc, fun _ => rfl⟩

/-- The loop can only succeed if the target label does not clash. -/
theorem flattenLoop_ok_label (toDim : Dim) (pre post : Dims) (off : Int) (ro : Bool) :
    ∀ (mid : Dims) (size : Int) (strides : List Int) (v : View), mid ≠ [] →
    (labels (pre ++ mid ++ post)).Nodup →
    flattenLoop pre.length toDim (labels mid) size ⟨pre ++ mid ++ post, strides, off, ro⟩ = .ok (some v) →
    toDim ∉ labels pre ∧ toDim ∉ labels post
  | [], _, _, _, h, _, _ => by contradiction
  | [p], size, strides, v, _, hn, h => by
    obtain ⟨l, n⟩ := p
    have e1 : pre ++ [(l, n)] ++ post = pre ++ (l, n) :: post := by simp
    simp only [e1] at hn h
    obtain ⟨h1, h2, h3, h4, h5⟩ := nodup_mid hn
    simp only [labels_cons, labels_nil, flattenLoop, resize, bind, Except.bind] at h
    split at h
    · simp at h
    rename_i r hr
    split at hr
    · simp at hr
    rw [assign_mid h1] at hr
    injection hr with hr
    subst hr
    by_contra hc
    have hor : toDim ∈ labels pre ∨ toDim ∈ labels post := by tauto
    have hne : l ≠ toDim := by
      rintro rfl
      exact hor.elim h1 h2
    rw [replaceKey_mid_error hne hor] at h
    simp at h
  | p :: q :: s, size, strides, v, _, hn, h => by
    obtain ⟨l, n⟩ := p
    have e1 : pre ++ (l, n) :: q :: s ++ post = pre ++ (l, n) :: (q :: s ++ post) := by simp
    simp only [e1] at hn h
    obtain ⟨h1, h2, h3, h4, h5⟩ := nodup_mid hn
    simp only [labels_cons] at h
    rw [flattenLoop] at h
    simp only [bind, Except.bind, erase_mid h1] at h
    split at h
    · simp at h
    · have e : pre ++ (q :: s ++ post) = pre ++ (q :: s) ++ post := by simp
      rw [e] at h
      refine flattenLoop_ok_label toDim pre post off ro (q :: s) _ _ v (by simp) ?_ h
      rw [← e]
      refine List.Nodup.sublist ?_ hn
      exact List.Sublist.map _ (List.Sublist.append_left (List.sublist_cons_self _ _) _)

/-! ### search -/

theorem searchIdx_some {pat : List Dim} : ∀ {l : List Dim} {n : Nat}, searchIdx pat l = some n →
    ∃ a b, l = a ++ pat ++ b ∧ a.length = n
  | [], n, h => by
    simp only [searchIdx] at h
    split at h
    · rename_i hp; injection h with h; exact ⟨[], [], by simp [hp], by simpa using h⟩
    · simp at h
  | x :: l, n, h => by
    simp only [searchIdx] at h
    split at h
    · rename_i hp
      injection h with h
      obtain ⟨b, hb⟩ := List.isPrefixOf_iff_prefix.1 hp
      exact ⟨[], b, by simp [hb], by simpa using h⟩
    · simp only [Option.map_eq_some_iff] at h
      obtain ⟨m, hm, rfl⟩ := h
      obtain ⟨a, b, rfl, hl⟩ := searchIdx_some hm
      exact ⟨x :: a, b, by simp, by simp [hl]⟩

theorem searchIdx_exists {pat : List Dim} : ∀ {l a b : List Dim}, l = a ++ pat ++ b →
    ∃ n, searchIdx pat l = some n
  | [], a, b, h => by
    simp at h
    exact ⟨0, by simp [searchIdx, h.2.1]⟩
  | x :: l, [], b, h => by
    refine ⟨0, ?_⟩
    rw [searchIdx, if_pos]
    rw [List.isPrefixOf_iff_prefix, h]
    simp
  | x :: l, y :: a, b, h => by
    simp only [List.cons_append, List.cons.injEq] at h
    obtain ⟨n, hn⟩ := searchIdx_exists (pat := pat) (l := l) (a := a) (b := b) (by simpa using h.2)
    by_cases hp : pat.isPrefixOf (x :: l)
    · exact ⟨0, by rw [searchIdx, if_pos hp]⟩
    · exact ⟨n + 1, by rw [searchIdx, if_neg hp, hn]; rfl⟩

/-- Labels split ⇒ dims split. -/
theorem split_of_labels {s : Dims} {a b c : List Dim} (h : labels s = a ++ b ++ c) :
    ∃ pre mid post, s = pre ++ mid ++ post ∧ labels pre = a ∧ labels mid = b ∧ labels post = c := by
  simp only [labels, List.map_eq_append_iff] at h
  obtain ⟨l1, l2, rfl, ⟨l3, l4, rfl, h3, h4⟩, h2⟩ := h
  exact ⟨l3, l4, l2, rfl, h3, h4, h2⟩

/-- The decomposition that `flatten` works with. -/
theorem View.flatten_cases {v : View} {from_ : List Dim} (hw : v.WF) (hne : from_ ≠ []) :
    (∀ toDim, v.flatten? from_ toDim = .error .dimension ∧
      ¬ ∃ a b, labels v.dims = a ++ from_ ++ b) ∨
    ∃ pre mid post spre smid spost, v = ⟨pre ++ mid ++ post, spre ++ smid ++ spost, v.offset, v.readonly⟩ ∧
      labels mid = from_ ∧ spre.length = pre.length ∧ smid.length = mid.length ∧
      spost.length = post.length ∧ ∀ toDim, v.flatten? from_ toDim = flattenLoop pre.length toDim from_ 1 v := by
  cases hs : searchIdx from_ (labels v.dims) with
  | none =>
    left
    intro toDim
    refine ⟨by simp [View.flatten?, hne, hs], ?_⟩
    rintro ⟨a, b, hab⟩
    obtain ⟨n, hn⟩ := searchIdx_exists hab
    rw [hs] at hn; simp at hn
  | some n =>
    right
    obtain ⟨a, b, hab, hl⟩ := searchIdx_some hs
    obtain ⟨pre, mid, post, hd, h1, h2, h3⟩ := split_of_labels hab
    obtain ⟨spm, spost, hst, h4, h5⟩ := split_strides2 (hd ▸ hw.2.1)
    obtain ⟨spre, smid, hst2, h6, h7⟩ := split_strides2 h4
    refine ⟨pre, mid, post, spre, smid, spost, ?_, h2, h6, h7, h5, ?_⟩
    · cases v; simp_all
    · intro toDim
      have : pre.length = n := by rw [← hl, ← h1]; simp
      simp [View.flatten?, hne, hs, this]

/-- Everything about `flatten?` with at least one label. -/
theorem View.flatten?_spec {v : View} {from_ : List Dim} {toDim : Dim} (hw : v.WF) (hne : from_ ≠ [])
    (r : Option View) (h : v.flatten? from_ toDim = .ok r) :
    ∃ pre mid post spre smid spost, v = ⟨pre ++ mid ++ post, spre ++ smid ++ spost, v.offset, v.readonly⟩ ∧
      labels mid = from_ ∧ spre.length = pre.length ∧ smid.length = mid.length ∧
      spost.length = post.length ∧
      (∀ v', r = some v' → toDim ∉ labels pre ∧ toDim ∉ labels post ∧ Contig mid smid ∧
        ∃ hs : smid ≠ [], v' = ⟨pre ++ (toDim, Dims.volume mid) :: post,
          spre ++ smid.getLast hs :: spost, v.offset, v.readonly⟩) ∧
      (r = none → ¬ Contig mid smid) := by
  rcases View.flatten_cases hw hne with hc | ⟨pre, mid, post, spre, smid, spost, hv, h1, h2, h3, h4, h5⟩
  · rw [(hc toDim).1] at h; simp at h
  · refine ⟨pre, mid, post, spre, smid, spost, hv, h1, h2, h3, h4, ?_⟩
    have hmid : mid ≠ [] := by rintro rfl; simp at h1; exact hne h1
    have hsm : smid ≠ [] := by rintro rfl; simp at h3; exact hmid (by simpa using h3.symm)
    have hwd := hw.1
    rw [h5 toDim, ← h1] at h
    rw [hv] at hwd h
    cases r with
    | some v' =>
      have hl := flattenLoop_ok_label toDim pre post _ _ mid 1 _ v' hmid hwd.1 h
      have hlab : toDim ∈ labels (pre ++ mid ++ post) → toDim ∈ labels mid := by
        intro e
        simp only [labels_append, List.mem_append] at e
        rcases e with (e | e) | e
        · exact absurd e hl.1
        · exact e
        · exact absurd e hl.2
      obtain ⟨i1, i2⟩ := flattenLoop_spec toDim pre post spre spost v.offset v.readonly h2 mid smid 1 hsm h3
        (by omega) hwd hlab
      refine ⟨?_, by simp⟩
      intro w hww
      injection hww with hww
      subst hww
      by_cases hC : Contig mid smid
      · rw [i1 hC] at h
        injection h with h
        injection h with h
        exact ⟨hl.1, hl.2, hC, hsm, by rw [← h]; simp⟩
      · rw [i2 hC] at h
        injection h with h; simp at h
    | none =>
      refine ⟨by simp, ?_⟩
      intro _ hC
      -- a contiguous group is never copied, whether or not the label clashes
      have key : ∀ (mid : Dims) (smid : List Int) (size : Int) , smid.length = mid.length → mid ≠ [] →
          (labels (pre ++ mid ++ post)).Nodup → Contig mid smid →
          flattenLoop pre.length toDim (labels mid) size
            ⟨pre ++ mid ++ post, spre ++ smid ++ spost, v.offset, v.readonly⟩ ≠ .ok none := by
        intro mid
        induction mid with
        | nil => intro _ _ _ h; contradiction
        | cons p mid ih =>
          intro smid size hl _ hn hC
          obtain ⟨l, n⟩ := p
          cases mid with
          | nil =>
            intro h
            simp only [labels_cons, labels_nil, flattenLoop, bind, Except.bind] at h
            split at h
            · simp at h
            split at h
            · simp at h
            · simp at h
          | cons q s =>
            match smid, hl, hC with
            | x :: y :: st, hl, hC =>
              obtain ⟨hc, hC⟩ := hC
              have e1 : pre ++ (l, n) :: q :: s ++ post = pre ++ (l, n) :: (q :: s ++ post) := by simp
              have e2 : spre ++ x :: y :: st ++ spost = spre ++ x :: (y :: st ++ spost) := by simp
              simp only [e1, e2] at hn ⊢
              obtain ⟨n1, _⟩ := nodup_mid hn
              have g2 : (shape (pre ++ (l, n) :: (q :: s ++ post))).getD (pre.length + 1) 0 = q.2 := by
                have : pre ++ (l, n) :: (q :: s ++ post) = (pre ++ [(l, n)]) ++ q :: (s ++ post) := by simp
                rw [this, shape_append, shape_cons]; exact getD_mid _ _ _ _ (by simp) _
              have g3 : (spre ++ x :: (y :: st ++ spost)).getD pre.length 0 = x := getD_mid _ _ _ _ h2 _
              have g4 : (spre ++ x :: (y :: st ++ spost)).getD (pre.length + 1) 0 = y := by
                have : spre ++ x :: (y :: st ++ spost) = (spre ++ [x]) ++ y :: (st ++ spost) := by simp
                rw [this]; exact getD_mid _ _ _ _ (by simp [h2]) _
              simp only [labels_cons]
              rw [flattenLoop]
              simp only [g2, g3, g4]
              rw [if_neg (by simpa using hc)]
              simp only [bind, Except.bind, erase_mid n1, eraseIdx_mid spre x _ _ h2]
              have := ih (y :: st) (size * (shape (pre ++ (l, n) :: (q :: s ++ post))).getD pre.length 0)
                (by simpa using hl) (by simp) (by
                  refine List.Nodup.sublist ?_ hn
                  rw [List.append_assoc]
                  exact List.Sublist.map _ (List.Sublist.append_left (List.sublist_cons_self _ _) _)) hC
              simp only [labels_cons, List.append_assoc] at this
              exact this
      exact key mid smid 1 h3 hmid hwd.1 hC h

end Scipp
