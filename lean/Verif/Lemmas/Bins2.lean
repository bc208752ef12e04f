import Verif.Lemmas.Bins
/-!
Lemmas about copying and concatenating binned variables.
-/
namespace Scipp.Bins
open Scipp.Sizes
variable {V : Type}

/-- A freshly laid out array of bins with given sizes: index pairs in the order of the elements. -/
structure LaidOut (sizes : Arr Int) (ind : Arr (Int × Int)) (n : Int) : Prop where
  dims : ind.dims = sizes.dims
  ok : ind.Ok
  nonneg : 0 ≤ n
  contiguous : Contiguous 0 n (valuesOf ind)
  size : ∀ c, InDims sizes.dims c → (ind.val c).2 - (ind.val c).1 = sizes.val c
  range : ∀ c, InDims sizes.dims c → 0 ≤ (ind.val c).1 ∧ (ind.val c).1 ≤ (ind.val c).2 ∧ (ind.val c).2 ≤ n
  ordered : ∀ i j : Nat, i < j → j < (Dims.volume sizes.dims).toNat →
    (ind.val (coordsOf sizes.dims i)).2 ≤ (ind.val (coordsOf sizes.dims j)).1

theorem layout_laidOut {sizes : Arr Int} (hs : sizes.Ok) (h0 : ∀ c, InDims sizes.dims c → 0 ≤ sizes.val c) :
    LaidOut sizes (ofValues sizes.dims (layout (valuesOf sizes))) (sizeFromEnds ((layout (valuesOf sizes)).map Prod.snd)) := by
  have hnn : ∀ n ∈ valuesOf sizes, 0 ≤ n := by
    intro n hn
    obtain ⟨c, hc, rfl⟩ := mem_valuesOf hs hn
    exact h0 c hc
  obtain ⟨l1, l2, l3⟩ := layout_spec _ hnn
  have hlen : (layout (valuesOf sizes)).length = (Dims.volume sizes.dims).toNat := by rw [l1, valuesOf_length]
  have hval := valuesOf_ofValues hs.wf hlen
  obtain ⟨b1, b2, b3⟩ := contiguous_bounds _ _ _ l3
  have hget : ∀ c, InDims sizes.dims c → ∃ r, (layout (valuesOf sizes))[(position sizes.dims c).toNat]? = some r ∧
      (ofValues sizes.dims (layout (valuesOf sizes))).val c = r := by
    intro c hc
    obtain ⟨p1, p2⟩ := position_bounds hc
    have hlt : (position sizes.dims c).toNat < (layout (valuesOf sizes)).length := by rw [hlen]; omega
    refine ⟨_, List.getElem?_eq_getElem hlt, ofValues_val (List.getElem?_eq_getElem hlt)⟩
  refine ⟨rfl, ofValues_ok hs.wf hs.valid _, b1, by rw [hval]; exact l3, ?_, ?_, ?_⟩
  · intro c hc
    obtain ⟨r, h1, h2⟩ := hget c hc
    rw [h2]
    have := congrArg (fun l => l[(position sizes.dims c).toNat]?) l2
    simp only [List.getElem?_map, h1, Option.map_some, valuesOf_get hs hc, Option.some.injEq] at this
    exact this
  · intro c hc
    obtain ⟨r, h1, h2⟩ := hget c hc
    rw [h2]
    exact b2 r (List.mem_of_getElem? h1)
  · intro i j hij hj
    rw [← hval] at b3
    unfold valuesOf at b3
    rw [List.pairwise_map, List.pairwise_iff_getElem] at b3
    have := b3 i j (by simp only [List.length_range]; exact lt_trans hij hj) (by simp only [List.length_range]; exact hj) hij
    simp only [List.getElem_range] at this
    exact this

theorem includes_of_subset {s t : Dims} (hs : WF s) (ht : WF t) (h : ∀ p ∈ t, p ∈ s) : includes s t = true :=
  (includes_iff hs.1 ht.1).2 h

/-- Bins of a source are copied to bins of a target laid out in order, where the bin at `c` goes to a part `part c` of the target bin. -/
theorem copyPart (eqv : V → V → Bool) (heq : ∀ a b, eqv a b = true → a = b) {src : Binned V} (hs : src.Ok) {dst : Table V} (hd : dst.Ok)
    (hm : src.buffer.Matches eqv dst) {sizes : Arr Int} (hsw : sizes.Ok) {ind : Arr (Int × Int)}
    (hl : LaidOut sizes ind dst.data.length) (part : Arr (Int × Int)) (hpd : part.dims = ind.dims)
    (hpart : ∀ c, InDims sizes.dims c → (ind.val c).1 ≤ (part.val c).1 ∧ (part.val c).2 ≤ (ind.val c).2 ∧
      (part.val c).2 - (part.val c).1 = (src.indices.val c).2 - (src.indices.val c).1)
    (hsub : ∀ p ∈ src.indices.dims, p ∈ sizes.dims) :
    ∃ pairs out, rangePairs src.indices part = .ok pairs ∧ copySlices eqv src.buffer dst pairs = .ok out ∧ out.Ok ∧
      out.data.length = dst.data.length ∧
      (∀ k : Nat, k < (Dims.volume sizes.dims).toNat →
        out.events (part.val (coordsOf sizes.dims k)) = src.buffer.events (src.indices.val (coordsOf sizes.dims k))) ∧
      (∀ j : Nat, (∀ k : Nat, k < (Dims.volume sizes.dims).toNat → ¬ ((part.val (coordsOf sizes.dims k)).1 ≤ j ∧
        (j : Int) < (part.val (coordsOf sizes.dims k)).2)) → out.event j = dst.event j) ∧
      ∀ t : Table V, t.Matches eqv dst → t.Matches eqv out := by
  have hdims : part.dims = sizes.dims := hpd.trans hl.dims
  have hin : ∀ k : Nat, k < (Dims.volume sizes.dims).toNat → InDims sizes.dims (coordsOf sizes.dims k) := fun k hk =>
    coordsOf_inDims hsw.wf (by omega) (by omega)
  have hsrc : ∀ k : Nat, k < (Dims.volume sizes.dims).toNat → InDims src.indices.dims (coordsOf sizes.dims k) := fun k hk d n hdn =>
    hin k hk d n (hsub _ hdn)
  let pairs := (List.range (Dims.volume sizes.dims).toNat).map (fun k : Nat =>
      (src.indices.val (coordsOf sizes.dims k), part.val (coordsOf sizes.dims k)))
  have hpairs : rangePairs src.indices part = .ok pairs := by
    unfold rangePairs
    rw [hdims, if_pos (includes_of_subset hsw.wf hs.indices.wf hsub)]
  have hok : ∀ p ∈ pairs, PairOk src.buffer.data.length dst.data.length p := by
    intro p hp
    obtain ⟨k, hk, rfl⟩ := List.mem_map.1 hp
    rw [List.mem_range] at hk
    obtain ⟨r1, r2, r3⟩ := hs.ranges _ (hsrc k hk)
    obtain ⟨q1, q2, q3⟩ := hl.range _ (hin k hk)
    obtain ⟨p1, p2, p3⟩ := hpart _ (hin k hk)
    exact ⟨r1, r2, r3, by simp only; omega, by simp only; omega, p3.symm⟩
  have hpw : pairs.Pairwise (fun p q => p.2.2 ≤ q.2.1) := by
    show (List.map _ _).Pairwise _
    rw [List.pairwise_map, List.pairwise_iff_getElem]
    intro i j hi hj hij
    simp only [List.length_range] at hi hj
    simp only [List.getElem_range]
    have := hl.ordered i j hij hj
    have h1 := hpart _ (hin i hi)
    have h2 := hpart _ (hin j hj)
    omega
  obtain ⟨out, o1, o2, o3, o4, o5, o6⟩ := copySlices_spec eqv heq hs.buffer hd hm pairs hok hpw
  refine ⟨pairs, out, hpairs, o1, o2, o3, ?_, ?_, o6⟩
  · intro k hk
    have hp : (src.indices.val (coordsOf sizes.dims k), part.val (coordsOf sizes.dims k)) ∈ pairs :=
      List.mem_map.2 ⟨k, List.mem_range.2 hk, rfl⟩
    have hlen := (hpart _ (hin k hk)).2.2
    refine events_eq hlen (fun m hm => o4 _ hp m ?_)
    simp only; omega
  · intro j hj
    refine o5 j (fun p hp => ?_)
    obtain ⟨k, hk, rfl⟩ := List.mem_map.1 hp
    exact hj k (List.mem_range.1 hk)

theorem binSizes_ok {idx : Arr (Int × Int)} (h : idx.Ok) : (binSizes idx).Ok :=
  ⟨h.wf, h.valid, fun c c' hc => by simp only [binSizes]; rw [h.own c c' hc]⟩

/-- Coordinates may be replaced by those of the position. -/
theorem val_coordsOf {α : Type} {a : Arr α} {dims : Dims} (ha : a.Ok) (hsub : ∀ p ∈ a.dims, p ∈ dims) (hw : WF dims) {c : Dim → Int}
    (hc : InDims dims c) : a.val (coordsOf dims ((position dims c).toNat : Nat)) = a.val c := by
  refine ha.own _ _ (fun d hd => ?_)
  rw [Int.toNat_of_nonneg (position_bounds hc).1]
  exact coordsOf_position hw.1 hc d (labels_mono hsub d hd)

theorem events_append (t : Table V) {b m e : Int} (h1 : b ≤ m) (h2 : m ≤ e) : t.events (b, e) = t.events (b, m) ++ t.events (m, e) := by
  unfold Table.events
  rw [← List.map_append]
  refine congrArg _ ?_
  simp only [intRange]
  have : (e - b).toNat = (m - b).toNat + (e - m).toNat := by omega
  rw [this, List.range_add, List.map_append, List.map_map]
  refine congrArg₂ _ rfl (List.map_congr_left (fun k _ => ?_))
  simp only [Function.comp]
  push_cast
  omega

end Scipp.Bins
