import Verif.Spec.Bins
import Verif.Lemmas.Masks
/-!
Lemmas about copying ranges of rows.
-/
namespace Scipp.Bins
open Scipp.Sizes
variable {V : Type}

/-! ### rows of one column -/

theorem writeRows_get (dst rows : List V) (b : Nat) (hb : b + rows.length ≤ dst.length) (j : Nat) :
    (writeRows dst b rows)[j]? = if b ≤ j ∧ j < b + rows.length then rows[j - b]? else dst[j]? := by
  unfold writeRows
  have ht : (dst.take b).length = b := by rw [List.length_take]; omega
  rw [List.append_assoc]
  by_cases h1 : j < b
  · rw [List.getElem?_append_left (by omega), List.getElem?_take_of_lt h1, if_neg (by omega)]
  · rw [List.getElem?_append_right (by omega), ht]
    by_cases h2 : j < b + rows.length
    · rw [List.getElem?_append_left (by omega), if_pos (by omega)]
    · rw [List.getElem?_append_right (by omega), List.getElem?_drop, if_neg (by omega)]
      congr 1; omega

theorem writeRows_length (dst rows : List V) (b : Nat) (hb : b + rows.length ≤ dst.length) :
    (writeRows dst b rows).length = dst.length := by
  unfold writeRows
  simp only [List.length_append, List.length_take, List.length_drop]
  omega

/-- Source and target range of a copied bin. -/
def PairOk (m n : Nat) (p : (Int × Int) × (Int × Int)) : Prop :=
  0 ≤ p.1.1 ∧ p.1.1 ≤ p.1.2 ∧ p.1.2 ≤ m ∧ 0 ≤ p.2.1 ∧ p.2.2 ≤ n ∧ p.1.2 - p.1.1 = p.2.2 - p.2.1

theorem copyRows_spec (src : List V) : ∀ (pairs : List ((Int × Int) × (Int × Int))) (dst : List V),
    (∀ p ∈ pairs, PairOk src.length dst.length p) → pairs.Pairwise (fun p q => p.2.2 ≤ q.2.1) →
    ∃ out, copyRows src dst pairs = .ok out ∧ out.length = dst.length ∧
      (∀ p ∈ pairs, ∀ k : Nat, (k : Int) < p.1.2 - p.1.1 → out[(p.2.1 + k).toNat]? = src[(p.1.1 + k).toNat]?) ∧
      ∀ j : Nat, (∀ p ∈ pairs, ¬ (p.2.1 ≤ j ∧ (j : Int) < p.2.2)) → out[j]? = dst[j]?
  | [], dst, _, _ => ⟨dst, rfl, rfl, by simp, fun _ _ => rfl⟩
  | (s, d) :: rest, dst, hp, hpw => by
    obtain ⟨h1, h2, h3, h4, h5, h6⟩ := hp (s, d) (by simp)
    simp only at h1 h2 h3 h4 h5 h6
    have hlen : ((src.drop s.1.toNat).take (s.2 - s.1).toNat).length = (s.2 - s.1).toNat := by
      rw [List.length_take, List.length_drop]; omega
    have hle : d.1.toNat + ((src.drop s.1.toNat).take (s.2 - s.1).toNat).length ≤ dst.length := by rw [hlen]; omega
    have hl' := writeRows_length dst _ d.1.toNat hle
    rw [List.pairwise_cons] at hpw
    obtain ⟨out, o1, o2, o3, o4⟩ := copyRows_spec src rest (writeRows dst d.1.toNat ((src.drop s.1.toNat).take (s.2 - s.1).toNat))
      (fun p hq => by rw [hl']; exact hp p (by simp [hq])) hpw.2
    refine ⟨out, ?_, o2.trans hl', ?_, ?_⟩
    · unfold copyRows
      rw [if_neg (by simp [h6]), if_neg (by
        simp only [inBuffer, Bool.not_eq_true', Bool.and_eq_false_iff, not_or, Bool.not_eq_false]
        constructor <;> simp <;> omega)]
      exact o1
    · intro p hpm k hk
      rcases List.mem_cons.1 hpm with rfl | hpm
      · simp only at hk ⊢
        rw [o4 (d.1 + k).toNat (fun q hq => by have := hpw.1 q hq; simp only at this; omega),
          writeRows_get dst _ _ hle, if_pos (by rw [hlen]; omega)]
        rw [List.getElem?_take_of_lt (by omega), List.getElem?_drop]
        congr 1; omega
      · exact o3 p hpm k hk
    · intro j hj
      have hj0 := hj (s, d) (by simp)
      simp only at hj0
      rw [o4 j (fun p hq => hj p (by simp [hq])), writeRows_get dst _ _ hle, if_neg (by rw [hlen]; omega)]

/-! ### tables -/

theorem matchingKeys_iff (a b : List (Dim × Col V)) : matchingKeys a b = true ↔
    ∀ k, (lookupEntry a k).isSome = (lookupEntry b k).isSome := by
  have key : ∀ (l : List (Dim × Col V)) k, (lookupEntry l k).isSome = true ↔ k ∈ l.map Prod.fst := by
    intro l k
    cases h : lookupEntry l k with
    | none => simpa using lookup_none.1 h
    | some c => simpa using ⟨c, lookup_mem h⟩
  unfold matchingKeys
  rw [Bool.and_eq_true, List.all_eq_true, List.all_eq_true]
  constructor
  · rintro ⟨h1, h2⟩ k
    rw [Bool.eq_iff_iff]
    constructor
    · intro h
      obtain ⟨p, hp, rfl⟩ := List.mem_map.1 ((key a k).1 h)
      exact h1 p hp
    · intro h
      obtain ⟨p, hp, rfl⟩ := List.mem_map.1 ((key b k).1 h)
      exact h2 p hp
  · intro h
    exact ⟨fun p hp => by rw [← h]; exact (key a _).2 (List.mem_map_of_mem hp),
      fun p hp => by rw [h]; exact (key b _).2 (List.mem_map_of_mem hp)⟩

/-- What `copy_or_match` does with the columns: relation of a column of the source, and of the target before and after. -/
def ColCopied (pairs : List ((Int × Int) × (Int × Int))) (src dst out : Col V) : Prop :=
  match src, dst, out with
  | .along s, .along d, .along o => copyRows s d pairs = .ok o
  | .fixed _, .fixed w, .fixed w' => w' = w
  | _, _, _ => False

theorem ColCopied.kind {pairs : List ((Int × Int) × (Int × Int))} {c d o : Col V} (h : ColCopied pairs c d o) :
    (∀ w, d = .fixed w → o = .fixed w) ∧ (∀ r, d = .along r → ∃ r', o = .along r') := by
  cases d with
  | along r =>
    cases o with
    | along r' => exact ⟨fun w hw => (by cases hw), fun _ _ => ⟨r', rfl⟩⟩
    | fixed w => cases c <;> simp [ColCopied] at h
  | fixed w =>
    cases o with
    | along r' => cases c <;> simp [ColCopied] at h
    | fixed w' =>
      cases c with
      | along _ => simp [ColCopied] at h
      | fixed v =>
        have h' : w' = w := h
        exact ⟨fun x hx => (by cases hx; rw [h']), fun r hr => (by cases hr)⟩

theorem copyCols_spec (eqv : V → V → Bool) (pairs : List ((Int × Int) × (Int × Int))) :
    ∀ (src dst : List (Dim × Col V)), (src.map Prod.fst).Nodup → (dst.map Prod.fst).Nodup →
    (∀ k rows, (k, Col.along rows) ∈ src → ∃ rows' o, lookupEntry dst k = some (.along rows') ∧ copyRows rows rows' pairs = .ok o) →
    (∀ k v, (k, Col.fixed v) ∈ src → ∃ w, lookupEntry dst k = some (.fixed w) ∧ eqv v w = true) →
    ∃ out, src.foldlM (copyOrMatch eqv pairs) dst = .ok out ∧ (out.map Prod.fst).Nodup ∧
      (∀ k, k ∉ src.map Prod.fst → lookupEntry out k = lookupEntry dst k) ∧
      ∀ k c, (k, c) ∈ src → ∃ d o, lookupEntry dst k = some d ∧ lookupEntry out k = some o ∧ ColCopied pairs c d o
  | [], dst, _, hd, _, _ => ⟨dst, rfl, hd, fun _ _ => rfl, by simp⟩
  | (k0, c0) :: src, dst, hn, hd, ha, hf => by
    simp only [List.map_cons, List.nodup_cons] at hn
    rw [List.foldlM_cons]
    -- one step
    have step : ∃ dst', copyOrMatch eqv pairs dst (k0, c0) = .ok dst' ∧ (dst'.map Prod.fst).Nodup ∧
        (∀ k, k ≠ k0 → lookupEntry dst' k = lookupEntry dst k) ∧
        ∃ d o, lookupEntry dst k0 = some d ∧ lookupEntry dst' k0 = some o ∧ ColCopied pairs c0 d o := by
      cases c0 with
      | along rows =>
        obtain ⟨rows', o, h1, h2⟩ := ha k0 rows (by simp)
        refine ⟨insertEntry dst k0 (.along o), ?_, insert_nodup hd _ _, ?_, ⟨.along rows', .along o, h1, ?_, h2⟩⟩
        · simp only [copyOrMatch, h1, h2]
        · intro k hk; rw [lookup_insert, if_neg hk]
        · rw [lookup_insert, if_pos rfl]
      | fixed v =>
        obtain ⟨w, h1, h2⟩ := hf k0 v (by simp)
        refine ⟨dst, ?_, hd, fun _ _ => rfl, ⟨.fixed w, .fixed w, h1, h1, rfl⟩⟩
        simp only [copyOrMatch, h1, h2, if_true]
    obtain ⟨dst', s1, s2, s3, s4⟩ := step
    have hne : ∀ k c, (k, c) ∈ src → k ≠ k0 := by
      rintro k c hk rfl
      exact hn.1 (List.mem_map_of_mem (f := Prod.fst) hk)
    obtain ⟨out, o1, o2, o3, o4⟩ := copyCols_spec eqv pairs src dst' hn.2 s2
      (fun k rows hk => by rw [s3 k (hne _ _ hk)]; exact ha k rows (by simp [hk]))
      (fun k v hk => by rw [s3 k (hne _ _ hk)]; exact hf k v (by simp [hk]))
    refine ⟨out, ?_, o2, ?_, ?_⟩
    · rw [s1]; exact o1
    · intro k hk
      simp only [List.map_cons, List.mem_cons, not_or] at hk
      rw [o3 k hk.2, s3 k hk.1]
    · intro k c hk
      rcases List.mem_cons.1 hk with hk | hk
      · injection hk with e1 e2
        subst e1; subst e2
        rw [o3 k hn.1]; exact s4
      · obtain ⟨d, o, g1, g2, g3⟩ := o4 k c hk
        rw [s3 k (hne _ _ hk)] at g1
        exact ⟨d, o, g1, g2, g3⟩

/-- Copying rows between tables with the same columns: success, the copied rows, and the rows left alone. -/
theorem copySlices_spec (eqv : V → V → Bool) (heq : ∀ a b, eqv a b = true → a = b) {src dst : Table V}
    (hs : src.Ok) (hd : dst.Ok) (hm : src.Matches eqv dst)
    (pairs : List ((Int × Int) × (Int × Int))) (hp : ∀ p ∈ pairs, PairOk src.data.length dst.data.length p)
    (hpw : pairs.Pairwise (fun p q => p.2.2 ≤ q.2.1)) :
    ∃ out, copySlices eqv src dst pairs = .ok out ∧ out.Ok ∧ out.data.length = dst.data.length ∧
      (∀ p ∈ pairs, ∀ k : Nat, (k : Int) < p.1.2 - p.1.1 → out.event (p.2.1 + k).toNat = src.event (p.1.1 + k).toNat) ∧
      (∀ j : Nat, (∀ p ∈ pairs, ¬ (p.2.1 ≤ j ∧ (j : Int) < p.2.2)) → out.event j = dst.event j) ∧
      ∀ t : Table V, t.Matches eqv dst → t.Matches eqv out := by
  obtain ⟨data, d1, d2, d3, d4⟩ := copyRows_spec src.data pairs dst.data hp hpw
  have hcols : ∀ k rows, (k, Col.along rows) ∈ src.cols → ∃ rows', lookupEntry dst.cols k = some (.along rows') ∧
      rows.length = src.data.length ∧ rows'.length = dst.data.length := by
    intro k rows hk
    obtain ⟨rows', h⟩ := hm.along k rows (lookup_of_mem hs.keys hk)
    exact ⟨rows', h, hs.rows _ _ hk, hd.rows _ _ (lookup_mem h)⟩
  obtain ⟨cols, c1, c2, c3, c4⟩ := copyCols_spec eqv pairs src.cols dst.cols hs.keys hd.keys
    (fun k rows hk => by
      obtain ⟨rows', h1, h2, h3⟩ := hcols k rows hk
      obtain ⟨o, ho, _⟩ := copyRows_spec rows pairs rows' (by rw [h2, h3]; exact hp) hpw
      exact ⟨rows', o, h1, ho⟩)
    (fun k v hk => hm.fixed k v (lookup_of_mem hs.keys hk))
  -- keys of the output are those of the source
  have hkeys : ∀ k, lookupEntry src.cols k = none → lookupEntry dst.cols k = none := by
    intro k hk
    have := hm.keys k
    rw [hk] at this
    simpa using this.symm
  refine ⟨⟨data, cols⟩, ?_, ⟨c2, ?_⟩, d2, ?_, ?_, ?_⟩
  · simp only [copySlices, d1, c1, (matchingKeys_iff _ _).2 hm.keys]; rfl
  · intro k rows hk
    have hl := lookup_of_mem c2 hk
    show rows.length = data.length
    cases hsk : lookupEntry src.cols k with
    | none =>
      rw [c3 k (lookup_none.1 hsk), hkeys k hsk] at hl
      cases hl
    | some c =>
      obtain ⟨d, o, g1, g2, g3⟩ := c4 k c (lookup_mem hsk)
      rw [g2] at hl; injection hl with hl; subst hl
      cases c with
      | fixed v => cases d <;> simp [ColCopied] at g3
      | along s =>
        cases d with
        | fixed v => simp [ColCopied] at g3
        | along r =>
          obtain ⟨rows', h1, h2, h3⟩ := hcols k s (lookup_mem hsk)
          rw [g1] at h1; injection h1 with h1; injection h1 with h1; subst h1
          obtain ⟨o', ho, ho2, _⟩ := copyRows_spec s pairs r (by rw [h2, h3]; exact hp) hpw
          have g3' : copyRows s r pairs = .ok rows := g3
          rw [ho] at g3'; injection g3' with g3'; subst g3'
          rw [ho2, h3, d2]
  · intro p hpm k hk
    simp only [Table.event, Event.mk.injEq]
    refine ⟨d3 p hpm k hk, funext fun key => ?_⟩
    cases hsk : lookupEntry src.cols key with
    | none => rw [c3 key (lookup_none.1 hsk), hkeys key hsk]; rfl
    | some c =>
      obtain ⟨d, o, g1, g2, g3⟩ := c4 key c (lookup_mem hsk)
      rw [g2]
      simp only [Option.bind_some]
      cases c with
      | fixed v =>
        obtain ⟨w, h1, h2⟩ := hm.fixed key v hsk
        rw [g1] at h1; injection h1 with h1; subst h1
        cases o with
        | along _ => simp [ColCopied] at g3
        | fixed w' =>
          have : w' = w := g3
          simp only [Col.at]; rw [this, heq v w h2]
      | along s =>
        obtain ⟨rows', h1, h2, h3⟩ := hcols key s (lookup_mem hsk)
        rw [g1] at h1; injection h1 with h1; subst h1
        cases o with
        | fixed _ => simp [ColCopied] at g3
        | along o =>
          have g3' : copyRows s rows' pairs = .ok o := g3
          obtain ⟨o', ho, _, ho3, _⟩ := copyRows_spec s pairs rows' (by rw [h2, h3]; exact hp) hpw
          rw [ho] at g3'; injection g3' with g3'; subst g3'
          exact ho3 p hpm k hk
  · intro j hj
    simp only [Table.event, Event.mk.injEq]
    refine ⟨d4 j hj, funext fun key => ?_⟩
    cases hsk : lookupEntry src.cols key with
    | none => rw [c3 key (lookup_none.1 hsk)]
    | some c =>
      obtain ⟨d, o, g1, g2, g3⟩ := c4 key c (lookup_mem hsk)
      rw [g1, g2]
      simp only [Option.bind_some]
      cases c with
      | fixed v =>
        cases d with
        | along _ => cases o <;> simp [ColCopied] at g3
        | fixed w =>
          cases o with
          | along _ => simp [ColCopied] at g3
          | fixed w' =>
            have : w' = w := g3
            simp only [Col.at]; rw [this]
      | along s =>
        obtain ⟨rows', h1, h2, h3⟩ := hcols key s (lookup_mem hsk)
        rw [g1] at h1; injection h1 with h1; subst h1
        cases o with
        | fixed _ => simp [ColCopied] at g3
        | along o =>
          have g3' : copyRows s rows' pairs = .ok o := g3
          obtain ⟨o', ho, _, _, ho4⟩ := copyRows_spec s pairs rows' (by rw [h2, h3]; exact hp) hpw
          rw [ho] at g3'; injection g3' with g3'; subst g3'
          exact ho4 j hj
  · intro t ht
    -- the columns keep their kind and, if fixed, their value
    have hkind : ∀ k, (∀ w, lookupEntry dst.cols k = some (.fixed w) → lookupEntry cols k = some (.fixed w)) ∧
        (∀ r, lookupEntry dst.cols k = some (.along r) → ∃ r', lookupEntry cols k = some (.along r')) ∧
        (lookupEntry dst.cols k = none → lookupEntry cols k = none) := by
      intro k
      cases hsk : lookupEntry src.cols k with
      | none =>
        rw [c3 k (lookup_none.1 hsk)]
        exact ⟨fun _ h => h, fun r h => ⟨r, h⟩, id⟩
      | some c =>
        obtain ⟨d, o, g1, g2, g3⟩ := c4 k c (lookup_mem hsk)
        obtain ⟨k1, k2⟩ := g3.kind
        rw [g1, g2]
        refine ⟨fun w h => ?_, fun r h => ?_, fun h => by cases h⟩
        · injection h with h; rw [k1 w h]
        · injection h with h; obtain ⟨r', hr'⟩ := k2 r h; exact ⟨r', by rw [hr']⟩
    refine ⟨fun k => ?_, fun k rows hk => ?_, fun k v hk => ?_⟩
    · rw [ht.keys k]
      cases hdk : lookupEntry dst.cols k with
      | none => rw [(hkind k).2.2 hdk]
      | some c =>
        cases c with
        | along r => obtain ⟨r', hr'⟩ := (hkind k).2.1 r hdk; rw [hr']; rfl
        | fixed w => rw [(hkind k).1 w hdk]
    · obtain ⟨r, hr⟩ := ht.along k rows hk
      exact (hkind k).2.1 r hr
    · obtain ⟨w, hw, hv⟩ := ht.fixed k v hk
      exact ⟨w, (hkind k).1 w hw, hv⟩

theorem lookup_resize (init : Nat → V) (size : Nat) : ∀ (l : List (Dim × Col V)) (k : Dim),
    lookupEntry (l.map (fun p => (p.1, p.2.resize init size))) k = (lookupEntry l k).map (Col.resize init size)
  | [], k => rfl
  | p :: l, k => by
    simp only [List.map_cons, lookupEntry]
    by_cases h : p.1 = k
    · simp [h]
    · simp [h, lookup_resize init size l k]

theorem resize_ok (init : Nat → V) (t : Table V) (ht : t.Ok) (size : Nat) : (t.resize init size).Ok := by
  refine ⟨?_, ?_⟩
  · have : (t.resize init size).cols.map Prod.fst = t.cols.map Prod.fst := by
      simp [Table.resize, List.map_map, Function.comp]
    rw [this]; exact ht.keys
  · intro k rows hk
    simp only [Table.resize, List.mem_map, Prod.mk.injEq] at hk
    obtain ⟨p, hp, rfl, h⟩ := hk
    cases hc : p.2 with
    | fixed v => rw [hc] at h; simp [Col.resize] at h
    | along r => rw [hc] at h; simp only [Col.resize, Col.along.injEq] at h; subst h; simp [Table.resize]

theorem resize_matches (eqv : V → V → Bool) (init : Nat → V) (t a : Table V) (h : a.Matches eqv t) (size : Nat) :
    a.Matches eqv (t.resize init size) := by
  refine ⟨fun k => ?_, fun k rows hk => ?_, fun k v hk => ?_⟩
  · rw [h.keys k]; simp only [Table.resize]; rw [lookup_resize]; cases lookupEntry t.cols k <;> rfl
  · obtain ⟨r, hr⟩ := h.along k rows hk
    simp only [Table.resize]; rw [lookup_resize, hr]; exact ⟨_, rfl⟩
  · obtain ⟨w, hw, hv⟩ := h.fixed k v hk
    simp only [Table.resize]; rw [lookup_resize, hw]; exact ⟨w, rfl, hv⟩

theorem matches_self (eqv : V → V → Bool) (t : Table V) (h : t.NoNaN eqv) : t.Matches eqv t :=
  ⟨fun _ => rfl, fun _ rows hk => ⟨rows, hk⟩, fun k v hk => ⟨v, hk, h k v (lookup_mem hk)⟩⟩

@[simp] theorem resize_data_length (init : Nat → V) (t : Table V) (size : Nat) : (t.resize init size).data.length = size := by
  simp [Table.resize]

/-! ### layouts -/

theorem layout_cons (acc n : Int) (ns : List Int) :
    (List.zipWith (fun e n => e - n) (cumsumFrom acc (n :: ns)) (n :: ns)).zip (cumsumFrom acc (n :: ns)) =
      (acc, acc + n) :: (List.zipWith (fun e n => e - n) (cumsumFrom (acc + n) ns) ns).zip (cumsumFrom (acc + n) ns) := by
  simp only [cumsumFrom, List.zipWith_cons_cons, List.zip_cons_cons, List.cons.injEq, Prod.mk.injEq, and_true]
  omega

/-- The layout starting at `acc`, for induction. -/
def layoutFrom (acc : Int) (sizes : List Int) : List (Int × Int) :=
  (List.zipWith (fun e n => e - n) (cumsumFrom acc sizes) sizes).zip (cumsumFrom acc sizes)

theorem layoutFrom_spec : ∀ (sizes : List Int) (acc : Int), (∀ n ∈ sizes, 0 ≤ n) →
    (layoutFrom acc sizes).length = sizes.length ∧
    (layoutFrom acc sizes).map (fun r => r.2 - r.1) = sizes ∧
    Contiguous acc (((layoutFrom acc sizes).map Prod.snd).getLast?.getD acc) (layoutFrom acc sizes)
  | [], acc, _ => ⟨rfl, rfl, rfl⟩
  | n :: ns, acc, h => by
    obtain ⟨h1, h2, h3⟩ := layoutFrom_spec ns (acc + n) (fun m hm => h m (by simp [hm]))
    have he : layoutFrom acc (n :: ns) = (acc, acc + n) :: layoutFrom (acc + n) ns := layout_cons acc n ns
    have hn := h n (by simp)
    rw [he]
    refine ⟨by simp [h1], ?_, rfl, by simp; omega, ?_⟩
    · simp only [List.map_cons, h2, List.cons.injEq, and_true]; omega
    · simp only [List.map_cons, List.getLast?_cons, Option.getD_some]
      simpa using h3

theorem contiguous_bounds : ∀ (l : List (Int × Int)) (b n : Int), Contiguous b n l →
    b ≤ n ∧ (∀ r ∈ l, b ≤ r.1 ∧ r.1 ≤ r.2 ∧ r.2 ≤ n) ∧ l.Pairwise (fun r r' => r.2 ≤ r'.1)
  | [], b, n, h => by simp only [Contiguous] at h; simp [h]
  | r :: l, b, n, ⟨h1, h2, h3⟩ => by
    obtain ⟨g1, g2, g3⟩ := contiguous_bounds l r.2 n h3
    refine ⟨by omega, ?_, ?_⟩
    · intro q hq
      rcases List.mem_cons.1 hq with rfl | hq
      · omega
      · have := g2 q hq; omega
    · rw [List.pairwise_cons]
      exact ⟨fun q hq => (g2 q hq).1, g3⟩

theorem layout_spec (sizes : List Int) (h : ∀ n ∈ sizes, 0 ≤ n) : (layout sizes).length = sizes.length ∧
    (layout sizes).map (fun r => r.2 - r.1) = sizes ∧
    Contiguous 0 (sizeFromEnds ((layout sizes).map Prod.snd)) (layout sizes) := layoutFrom_spec sizes 0 h

theorem valuesOf_length {α : Type} (a : Arr α) : (valuesOf a).length = (Dims.volume a.dims).toNat := by simp [valuesOf]

/-- Memory and content of a freshly created variable. -/
theorem valuesOf_ofValues {α : Type} [Inhabited α] {dims : Dims} (hw : WF dims) {l : List α} (hl : l.length = (Dims.volume dims).toNat) :
    valuesOf (ofValues dims l) = l := by
  refine List.ext_getElem (by rw [valuesOf_length]; exact hl.symm) (fun k h1 h2 => ?_)
  have hk : k < (Dims.volume dims).toNat := by rwa [valuesOf_length] at h1
  simp only [valuesOf, ofValues, List.getElem_map, List.getElem_range, ← position_eq]
  rw [position_coordsOf hw (by omega) (by omega)]
  simp [List.getD_eq_getElem?_getD, h2]

theorem ofValues_ok {α : Type} [Inhabited α] {dims : Dims} (hw : WF dims) (hi : Dim.invalid ∉ labels dims) (l : List α) :
    (ofValues dims l).Ok :=
  ⟨hw, hi, fun c c' h => by
    simp only [ofValues, ← position_eq]
    rw [position_congr (s := dims) h]⟩

/-- An element is the entry of the list of values at its position. -/
theorem valuesOf_get {α : Type} {a : Arr α} (ha : a.Ok) {c : Dim → Int} (hc : InDims a.dims c) :
    (valuesOf a)[(position a.dims c).toNat]? = some (a.val c) := by
  obtain ⟨h1, h2⟩ := position_bounds hc
  have hlt : (position a.dims c).toNat < (Dims.volume a.dims).toNat := by omega
  unfold valuesOf
  rw [List.getElem?_map, List.getElem?_range hlt]
  simp only [Option.map_some, Option.some.injEq]
  refine ha.own _ _ (fun d hd => ?_)
  rw [Int.toNat_of_nonneg h1]
  exact coordsOf_position ha.wf.1 hc d hd

theorem ofValues_val {α : Type} [Inhabited α] {dims : Dims} {l : List α} {c : Dim → Int} {x : α}
    (h : l[(position dims c).toNat]? = some x) : (ofValues dims l).val c = x := by
  simp only [ofValues, ← position_eq, List.getD_eq_getElem?_getD, h, Option.getD_some]

theorem mem_valuesOf {α : Type} {a : Arr α} (ha : a.Ok) {x : α} (h : x ∈ valuesOf a) : ∃ c, InDims a.dims c ∧ a.val c = x := by
  simp only [valuesOf, List.mem_map, List.mem_range] at h
  obtain ⟨k, hk, rfl⟩ := h
  exact ⟨coordsOf a.dims k, coordsOf_inDims ha.wf (by omega) (by omega), rfl⟩

/-- Ranges of equal length in two tables have the same events if the rows agree. -/
theorem events_eq {t u : Table V} {r s : Int × Int} (hlen : r.2 - r.1 = s.2 - s.1)
    (h : ∀ k : Nat, (k : Int) < r.2 - r.1 → t.event (r.1 + k).toNat = u.event (s.1 + k).toNat) : t.events r = u.events s := by
  unfold Table.events intRange
  rw [List.map_map, List.map_map, ← hlen]
  refine List.map_congr_left (fun k hk => ?_)
  rw [List.mem_range] at hk
  exact h k (by omega)

end Scipp.Bins
