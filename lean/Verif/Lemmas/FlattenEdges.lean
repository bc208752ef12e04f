import Verif.Spec.FlattenEdges
import Verif.Lemmas.Concat3
import Verif.Lemmas.Flatten
namespace Scipp.Flat
open Scipp Scipp.Sizes Scipp.Concat
variable {V : Type}

theorem resize_mid {pre post : Dims} {d : Dim} {n x : Int} (h : d ∉ labels pre) (hx : 0 ≤ x) :
    resize (pre ++ (d, n) :: post) d x = .ok (pre ++ (d, x) :: post) := by
  unfold resize
  rw [if_neg (by omega), assign_mid h]

theorem range_eq {x : CVar V} {pre post : Dims} {d : Dim} {n b e : Int} (hx : x.dims = pre ++ (d, n) :: post)
    (hw : WF x.dims) (hb : 0 ≤ b) (hbe : b ≤ e) (hen : e ≤ n) :
    range x d b e = .ok { x with arr := ⟨pre ++ (d, e - b) :: post, fun c => x.arr.val (upd c d (b + c d))⟩ } := by
  have hd : d ∉ labels pre := by
    have := hw.1
    rw [hx, labels_append, labels_cons] at this
    exact fun hc => (List.nodup_append.1 this).2.2 d hc d (by simp) rfl
  obtain ⟨S, s1, s2, s3⟩ := slice_range_ok (dim := d) (N := n) (b := b) (n := e - b) hw (by rw [hx]; simp) hb (by omega) (by omega)
  have hbe' : b + (e - b) = e := by omega
  rw [hbe'] at s1 s2
  rw [hx, resize_mid hd (by omega)] at s3
  have s3 := (Except.ok.inj s3).symm
  subst s3
  unfold range
  simp only [s1]
  unfold CVar.slice
  rw [s2]
  have h1 : e ≠ -1 := by omega
  simp only [if_neg h1, Int.mul_one]

theorem point_eq {x : CVar V} {pre post : Dims} {d : Dim} {n k : Int} (hx : x.dims = pre ++ (d, n) :: post)
    (hok : x.arr.Ok) (hk : 0 ≤ k) (hkn : k < n) :
    point x d k = .ok { x with arr := ⟨pre ++ post, fun c => x.arr.val (upd c d k)⟩ } := by
  have hw : WF x.dims := hok.wf
  have hd : d ∉ labels pre := by
    have := hw.1
    rw [hx, labels_append, labels_cons] at this
    exact fun hc => (List.nodup_append.1 this).2.2 d hc d (by simp) rfl
  unfold point Slice.point
  rw [if_neg (by omega)]
  show CVar.slice x ⟨d, k, -1, 1⟩ = _
  unfold CVar.slice Sizes.slice
  have hne : (⟨d, k, -1, 1⟩ : Slice) ≠ Slice.none := by
    intro hc
    have := congrArg Slice.start hc
    simp only [Slice.none] at this
    omega
  have hv : validSlice x.dims ⟨d, k, -1, 1⟩ = .ok () := by
    rw [validSlice_iff hne hw.1]
    exact ⟨n, by rw [hx]; simp, by simp; omega⟩
  rw [hv]
  simp only [bind, Except.bind, if_neg hne, Slice.isRange]
  rw [hx, erase_mid hd]
  simp

theorem searchIdx_self (ls : List Dim) : searchIdx ls ls = some 0 := by
  cases ls with
  | nil => rfl
  | cons a l => simp [searchIdx]

theorem own_coordsOf {x : CVar V} (hx : x.arr.Ok) {ls : List Dim} (hls : ls = labels x.dims) (f c : Dim → Int) :
    x.arr.val (fun d => if d ∈ ls then f d else c d) = x.arr.val f := by
  refine hx.own _ _ (fun d hd => ?_)
  rw [if_pos (hls ▸ hd)]

/-- Flattening all dims. -/
theorem flatten_all {x : CVar V} (hx : x.arr.Ok) {toDim : Dim} (ht : toDim ≠ Dim.invalid) :
    ∃ y, flatten x (labels x.dims) toDim = .ok y ∧ y.dims = [(toDim, Dims.volume x.dims)] ∧
      (∀ c, y.arr.val c = x.arr.val (coordsOf x.dims (c toDim))) ∧ y.unit = x.unit ∧ y.kind = x.kind := by
  unfold flatten
  by_cases hl : labels x.dims = []
  · rw [if_pos hl]
    have hd : x.arr.dims = [] := by
      have : x.dims = [] := by
        cases h : x.dims with
        | nil => rfl
        | cons p l => rw [h] at hl; simp [labels] at hl
      exact this
    have : Dims.addInner x.dims toDim 1 = .ok [(toDim, 1)] := by
      show Dims.addInner x.arr.dims toDim 1 = _
      rw [hd]
      unfold Dims.addInner
      rw [if_neg ht, if_neg (by decide)]
      rfl
    rw [this]
    refine ⟨_, rfl, ?_, fun c => ?_, rfl, rfl⟩
    · show [(toDim, (1 : Int))] = [(toDim, Dims.volume x.arr.dims)]
      rw [hd]; rfl
    · refine hx.own _ _ (fun d hd' => ?_)
      rw [hd] at hd'; simp [labels] at hd'
  · rw [if_neg hl, searchIdx_self]
    have hlen : (labels x.dims).length = x.dims.length := by simp [labels]
    simp only [List.take_zero, List.nil_append, Nat.zero_add, List.drop_zero, hlen, List.drop_length, List.take_length]
    rw [if_neg (by simp [labels])]
    exact ⟨_, rfl, rfl, fun c => own_coordsOf hx rfl _ _, rfl, rfl⟩

theorem foldPosition_eq : ∀ (s : Dims) (c : Dim → Int), foldPosition s c = position s c
  | [], _ => rfl
  | p :: s, c => by rw [foldPosition, foldPosition_eq s c, position_cons]

theorem arr_ok_one {d : Dim} {n : Int} (hd : d ≠ Dim.invalid) (hn : 0 ≤ n) {f : (Dim → Int) → V} (hf : ∀ c c', c d = c' d → f c = f c') :
    Arr.Ok (⟨[(d, n)], f⟩ : Arr V) :=
  ⟨⟨by simp [labels], by simpa using hn⟩, by simpa [labels] using Ne.symm hd, fun c c' h => hf c c' (h d (by simp [labels]))⟩

theorem inDims_outer {outer : Dims} {edge : Dim} {m : Int} {c : Dim → Int} (h : InDims (outer ++ [(edge, m)]) c) :
    InDims outer c ∧ 0 ≤ c edge ∧ c edge < m :=
  ⟨fun d n hd => h d n (by simp [hd]), (h edge m (by simp))⟩

theorem inDims_append {outer : Dims} {edge : Dim} {m : Int} {c : Dim → Int} (h : InDims outer c) (h0 : 0 ≤ c edge) (h1 : c edge < m) :
    InDims (outer ++ [(edge, m)]) c := by
  intro d n hd
  rcases List.mem_append.1 hd with h2 | h2
  · exact h d n h2
  · simp only [List.mem_singleton, Prod.mk.injEq] at h2
    rw [h2.1, h2.2]; exact ⟨h0, h1⟩

theorem inDims_upd {outer : Dims} {edge : Dim} {c : Dim → Int} {k : Int} (he : edge ∉ labels outer) (h : InDims outer c) :
    InDims outer (upd c edge k) := by
  intro d n hd
  have : d ≠ edge := fun hc => he (hc ▸ mem_labels hd)
  rw [upd_ne this]
  exact h d n hd

theorem position_upd {outer : Dims} {edge : Dim} {c : Dim → Int} {k : Int} (he : edge ∉ labels outer) :
    position outer (upd c edge k) = position outer c :=
  position_congr (fun d hd => upd_ne (fun hc => he (hc ▸ hd)))

/-- The join condition in terms of positions. -/
theorem joinable_iff {eq : V → V → Bool} {x : CVar V} {outer : Dims} {edge : Dim} {n : Int} (hx : x.arr.Ok)
    (hd : x.dims = outer ++ [(edge, n + 1)]) (hw : WF outer) :
    Joinable eq x outer edge n ↔ ∀ p : Int, 0 ≤ p → p < Dims.volume outer - 1 →
      eq (x.arr.val (upd (coordsOf outer (p + 1)) edge 0)) (x.arr.val (upd (coordsOf outer p) edge n)) = true := by
  have hval : ∀ {c : Dim → Int} {k : Int}, InDims outer c →
      x.arr.val (upd (coordsOf outer (position outer c)) edge k) = x.arr.val (upd c edge k) := by
    intro c k hc
    refine hx.own _ _ (fun d hdl => ?_)
    change d ∈ labels x.dims at hdl
    rw [hd, labels_append] at hdl
    by_cases h : d = edge
    · rw [h, upd_same, upd_same]
    · rw [upd_ne h, upd_ne h]
      refine coordsOf_position hw.1 hc d ?_
      rcases List.mem_append.1 hdl with h1 | h1
      · exact h1
      · simp [labels] at h1; exact absurd h1 h
  constructor
  · intro h p h0 h1
    refine h _ _ (coordsOf_inDims hw h0 (by omega)) (coordsOf_inDims hw (by omega) (by omega)) ?_
    rw [position_coordsOf hw h0 (by omega), position_coordsOf hw (by omega) (by omega)]
  · intro h c c' hc hc' hp
    have b := position_bounds hc
    have b' := position_bounds hc'
    have := h (position outer c) b.1 (by omega)
    rwa [← hp, hval hc, hval hc'] at this

/-- Equal edges along a chain of rows without bins. -/
theorem chain_eq {f : Int → V} {N : Int} (h : ∀ p, 0 ≤ p → p < N - 1 → f (p + 1) = f p) :
    ∀ (k : Nat) (p : Int), 0 ≤ p → p + k = N - 1 → f (N - 1) = f p
  | 0, p, _, hk => by rw [show N - 1 = p by omega]
  | k + 1, p, h0, hk => by
    rw [chain_eq h k (p + 1) (by omega) (by omega)]
    exact h p h0 (by omega)

theorem flattenBinEdge_spec {eq : V → V → Bool} (heq : ∀ a b, eq a b = true → a = b) {x : CVar V} {outer : Dims} {edge toDim : Dim} {n : Int}
    (hx : x.arr.Ok) (hd : x.dims = outer ++ [(edge, n + 1)]) (hn : 0 ≤ n) (hN : 1 ≤ Dims.volume outer) (ht : toDim ≠ Dim.invalid) :
    (¬ Joinable eq x outer edge n → flattenBinEdge eq x (labels outer ++ [edge]) toDim edge = .ok none) ∧
    (Joinable eq x outer edge n → ∃ y, flattenBinEdge eq x (labels outer ++ [edge]) toDim edge = .ok (some y) ∧
      y.dims = [(toDim, Dims.volume outer * n + 1)] ∧ y.arr.Ok ∧ y.unit = x.unit ∧ y.kind = x.kind ∧
      ∀ c, InDims x.dims c → y.arr.val (upd c toDim (position outer c * n + c edge)) = x.arr.val c) := by
  have hxw : WF x.dims := hx.wf
  have hnd : (labels outer).Nodup ∧ edge ∉ labels outer := by
    have := hxw.1
    rw [hd, labels_append] at this
    refine ⟨(List.nodup_append.1 this).1, fun hc => (List.nodup_append.1 this).2.2 edge hc edge (by simp [labels]) rfl⟩
  have hwo : WF outer := ⟨hnd.1, fun p hp => hxw.2 p (by rw [hd]; simp [hp])⟩
  have hval : ∀ c c' : Dim → Int, (∀ d ∈ labels outer, c d = c' d) → c edge = c' edge → x.arr.val c = x.arr.val c' := by
    intro c c' h1 h2
    refine hx.own _ _ (fun d hdl => ?_)
    change d ∈ labels x.dims at hdl
    rw [hd, labels_append] at hdl
    rcases List.mem_append.1 hdl with h3 | h3
    · exact h1 d h3
    · simp [labels] at h3; rw [h3]; exact h2
  have hvalid : Dim.invalid ∉ labels outer := fun hc => hx.valid (by show Dim.invalid ∈ labels x.dims; rw [hd, labels_append]; simp [hc])
  -- slices at the first and last edge
  have hat : Sizes.at? x.dims edge = .ok (n + 1) := by rw [hd]; exact at?_mid hnd.2
  have hpt : ∀ k, 0 ≤ k → k < n + 1 → point x edge k = .ok { x with arr := ⟨outer, fun c => x.arr.val (upd c edge k)⟩ } := by
    intro k h0 h1
    have := point_eq (post := []) hd hx h0 h1
    simpa using this
  have hok : ∀ k, ({ x with arr := ⟨outer, fun c => x.arr.val (upd c edge k)⟩ } : CVar V).arr.Ok := by
    intro k
    refine ⟨hwo, hvalid, fun c c' h => hval _ _ (fun d hdl => ?_) (by rw [upd_same, upd_same])⟩
    have : d ≠ edge := fun hc => hnd.2 (hc ▸ hdl)
    rw [upd_ne this, upd_ne this]; exact h d hdl
  obtain ⟨fy, f1, f2, f3, f4, f5⟩ := flatten_all (hok 0) ht
  obtain ⟨by_, b1, b2, b3, b4, b5⟩ := flatten_all (hok n) ht
  have f1' : flatten { x with arr := ⟨outer, fun c => x.arr.val (upd c edge 0)⟩ } (labels outer) toDim = .ok fy := f1
  have b1' : flatten { x with arr := ⟨outer, fun c => x.arr.val (upd c edge n)⟩ } (labels outer) toDim = .ok by_ := b1
  have f2' : fy.dims = [(toDim, Dims.volume outer)] := f2
  have b2' : by_.dims = [(toDim, Dims.volume outer)] := b2
  have f3' : ∀ c, fy.arr.val c = x.arr.val (upd (coordsOf outer (c toDim)) edge 0) := f3
  have b3' : ∀ c, by_.arr.val c = x.arr.val (upd (coordsOf outer (c toDim)) edge n) := b3
  have hw1 : ∀ m : Int, 0 ≤ m → WF ([(toDim, m)] : Dims) := fun m hm => ⟨by simp [labels], by simpa using hm⟩
  have hA := range_eq (pre := []) (post := []) (b := 1) (e := Dims.volume outer) f2' (by rw [f2']; exact hw1 _ (by omega)) (by omega) hN (le_refl _)
  have hB := range_eq (pre := []) (post := []) (b := 0) (e := Dims.volume outer - 1) b2' (by rw [b2']; exact hw1 _ (by omega)) (by omega) (by omega) (by omega)
  simp only [List.nil_append] at hA hB
  generalize hadef : ({ fy with arr := ⟨[(toDim, Dims.volume outer - 1)], fun c => fy.arr.val (upd c toDim (1 + c toDim))⟩ } : CVar V) = a at hA
  generalize hbdef : ({ by_ with arr := ⟨[(toDim, Dims.volume outer - 1 - 0)], fun c => by_.arr.val (upd c toDim (0 + c toDim))⟩ } : CVar V) = b at hB
  have hbok : by_.arr.Ok := by
    refine ⟨by change WF by_.dims; rw [b2']; exact hw1 _ (by omega), ?_, ?_⟩
    · change Dim.invalid ∉ labels by_.dims; rw [b2']; simpa [labels] using Ne.symm ht
    · intro c c' h
      rw [b3', b3', h toDim (by change toDim ∈ labels by_.dims; rw [b2']; simp [labels])]
  have hjoin : a.equal eq b = true ↔ Joinable eq x outer edge n := by
    rw [joinable_iff hx hd hwo]
    have haok : a.arr.Ok := by
      rw [← hadef]
      exact arr_ok_one ht (by omega) (fun c c' h => by rw [f3', f3', upd_same, upd_same, h])
    have hbok' : b.arr.Ok := by
      rw [← hbdef]
      exact arr_ok_one ht (by omega) (fun c c' h => by rw [b3', b3', upd_same, upd_same, h])
    have hdims : a.dims = [(toDim, Dims.volume outer - 1)] := by rw [← hadef]
    constructor
    · intro h p h0 h1
      have := (equal_ok haok hbok' h).2.2.2 (fun _ => p) (by
        intro d m hdm
        rw [hdims] at hdm
        simp only [List.mem_singleton, Prod.mk.injEq] at hdm
        rw [hdm.2]; exact ⟨h0, h1⟩)
      rw [← hadef, ← hbdef] at this
      simp only [f3', b3', upd_same] at this
      rw [Int.add_comm, Int.zero_add] at this
      exact this
    · intro h
      refine equal_intro haok ?_ ?_ ?_ (fun c hc => ?_)
      · rw [← hadef, ← hbdef]; exact f4.trans b4.symm
      · rw [← hadef, ← hbdef]; simp
      · rw [← hadef, ← hbdef]; exact f5.trans b5.symm
      · rw [hdims] at hc
        have hb := hc toDim (Dims.volume outer - 1) (by simp)
        rw [← hadef, ← hbdef]
        simp only [f3', b3', upd_same]
        rw [Int.zero_add, Int.add_comm]
        exact h _ hb.1 hb.2
  have hn1 : n + 1 - 1 = n := by omega
  have hpre : flattenBinEdge eq x (labels outer ++ [edge]) toDim edge =
      if a.equal eq b = false then .ok none
      else
        match range x edge 0 n with
        | .error e => .error e
        | .ok cut =>
          match flatten cut (labels outer ++ [edge]) toDim with
          | .error e => .error e
          | .ok bulk =>
            match point by_ toDim (Dims.volume outer - 1) with
            | .error e => .error e
            | .ok last =>
              match appendEdge bulk last toDim with
              | .error e => .error e
              | .ok out => .ok (some out) := by
    unfold flattenBinEdge
    simp only [hat, hn1, hpt 0 (le_refl _) (by omega), hpt n hn (by omega), f1', b1', hA, hB]
    rfl
  refine ⟨fun hj => ?_, fun hj => ?_⟩
  · rw [hpre, if_pos]
    rw [← hjoin] at hj
    simpa using hj
  · have hcut := range_eq (pre := outer) (post := []) (b := 0) (e := n) hd hxw (le_refl _) hn (by omega)
    rw [Int.sub_zero] at hcut
    simp only [Int.zero_add] at hcut
    generalize hcdef : ({ x with arr := ⟨outer ++ [(edge, n)], fun c => x.arr.val (upd c edge (c edge))⟩ } : CVar V) = cut at hcut
    have hcd : cut.dims = outer ++ [(edge, n)] := by rw [← hcdef]
    have hcv : ∀ c, cut.arr.val c = x.arr.val c := by
      intro c
      rw [← hcdef]
      show x.arr.val (upd c edge (c edge)) = _
      congr 1
      funext d; unfold upd; split
      · rename_i h; rw [h]
      · rfl
    have hcw : WF (outer ++ [(edge, n)]) := by
      refine ⟨?_, ?_⟩
      · rw [labels_append]
        have := hxw.1
        rw [hd, labels_append] at this
        exact this
      · intro p hp
        rcases List.mem_append.1 hp with h | h
        · exact hwo.2 p h
        · simp at h; rw [h]; exact hn
    have hcl : labels cut.dims = labels outer ++ [edge] := by rw [hcd, labels_append]; rfl
    have hcok : cut.arr.Ok := by
      refine ⟨by change WF cut.dims; rw [hcd]; exact hcw, ?_, fun c c' h => ?_⟩
      · change Dim.invalid ∉ labels cut.dims
        rw [hcl]
        intro hc
        exact hx.valid (by show Dim.invalid ∈ labels x.dims; rw [hd, labels_append]; exact hc)
      · change ∀ d ∈ labels cut.dims, _ at h
        rw [hcl] at h
        rw [hcv, hcv]
        exact hval _ _ (fun d hdl => h d (by simp [hdl])) (h edge (by simp))
    obtain ⟨bulk, u1, u2, u3, u4, u5⟩ := flatten_all hcok ht
    rw [hcl] at u1
    rw [hcd] at u2
    have hvol : Dims.volume (outer ++ [(edge, n)]) = Dims.volume outer * n := by simp
    rw [hvol] at u2
    have hlast := point_eq (pre := []) (post := []) (k := Dims.volume outer - 1) b2' hbok (by omega) (by omega)
    simp only [List.nil_append] at hlast
    have happ : ∀ last : CVar V, appendEdge bulk last toDim = .ok { bulk with arr := ⟨[(toDim, Dims.volume outer * n + 1)],
        fun c => if c toDim < Dims.volume outer * n then bulk.arr.val c else last.arr.val c⟩ } := by
      intro last
      have h0 : 0 ≤ Dims.volume outer * n := Int.mul_nonneg (by omega) hn
      unfold appendEdge
      have hz : at? bulk.dims toDim = .ok (Dims.volume outer * n) := by rw [u2]; simp [at?]
      have hr : resize bulk.dims toDim (Dims.volume outer * n + 1) = .ok [(toDim, Dims.volume outer * n + 1)] := by
        rw [u2]; exact resize_mid (pre := []) (post := []) (by simp [labels]) (by omega)
      rw [hz]
      simp only [hr]
    refine ⟨{ bulk with arr := ⟨[(toDim, Dims.volume outer * n + 1)], fun c => if c toDim < Dims.volume outer * n then bulk.arr.val c
        else by_.arr.val (upd c toDim (Dims.volume outer - 1))⟩ }, ?_, ?_, ?_, ?_, ?_, ?_⟩
    · rw [hpre, if_neg (by rw [hjoin.2 hj]; decide), hcut]
      simp only [u1, hlast, happ]
    · rfl
    · refine arr_ok_one ht ?_ (fun c c' h => ?_)
      · have := Int.mul_nonneg (show 0 ≤ Dims.volume outer by omega) hn
        omega
      · simp only [h, u3, b3', upd_same]
    · show bulk.unit = x.unit
      rw [u4, ← hcdef]
    · show bulk.kind = x.kind
      rw [u5, ← hcdef]
    · intro c hc
      rw [hd] at hc
      obtain ⟨hco, he0, he1⟩ := inDims_outer hc
      obtain ⟨p0, p1⟩ := position_bounds hco
      have hcp : ∀ d ∈ labels outer, coordsOf outer (position outer c) d = c d := coordsOf_position hnd.1 hco
      have hj' := (joinable_iff hx hd hwo).1 hj
      have hbulk : ∀ c' : Dim → Int, InDims outer c' → 0 ≤ c' edge → c' edge < n →
          bulk.arr.val (upd c toDim (position outer c' * n + c' edge)) = x.arr.val c' := by
        intro c' h1 h2 h3
        rw [u3, upd_same, hcv, hcd]
        have hp : position (outer ++ [(edge, n)]) c' = position outer c' * n + c' edge := position_concat _ _ _
        have := coordsOf_position (s := outer ++ [(edge, n)]) hcw.1 (inDims_append h1 h2 h3)
        rw [← hp]
        refine hval _ _ (fun d hdl => this d (by rw [labels_append]; simp [hdl])) (this edge (by rw [labels_append]; simp [labels]))
      show (if upd c toDim (position outer c * n + c edge) toDim < Dims.volume outer * n then _ else _) = _
      rw [upd_same]
      by_cases hlt : c edge < n
      · rw [if_pos, hbulk c hco he0 hlt]
        have : (position outer c + 1) * n ≤ Dims.volume outer * n := Int.mul_le_mul_of_nonneg_right (by omega) hn
        rw [Int.add_mul] at this
        omega
      · have hce : c edge = n := by omega
        have hlastv : by_.arr.val (upd (upd c toDim (position outer c * n + c edge)) toDim (Dims.volume outer - 1)) =
            x.arr.val (upd (coordsOf outer (Dims.volume outer - 1)) edge n) := by rw [b3', upd_same]
        have hxc : x.arr.val (upd (coordsOf outer (position outer c)) edge n) = x.arr.val c := by
          refine hval _ _ (fun d hdl => ?_) (by rw [upd_same, hce])
          have hde : d ≠ edge := fun hc => hnd.2 (hc ▸ hdl)
          rw [upd_ne hde]
          exact hcp d hdl
        by_cases hpl : position outer c = Dims.volume outer - 1
        · rw [if_neg]
          · show by_.arr.val _ = _
            rw [hlastv, ← hpl, hxc]
          · rw [hpl, hce, Int.sub_mul]; omega
        · by_cases hn0 : n = 0
          · rw [if_neg]
            · show by_.arr.val _ = _
              rw [hlastv]
              have hch := chain_eq (f := fun p => x.arr.val (upd (coordsOf outer p) edge n)) (N := Dims.volume outer) (fun p h0 h1 => by
                have := heq _ _ (hj' p h0 h1)
                rw [hn0] at this ⊢
                exact this) (Dims.volume outer - 1 - position outer c).toNat (position outer c) p0 (by omega)
              rw [hch]
              exact hxc
            · rw [hce, hn0]; simp
          · rw [if_pos]
            · have hk : position outer c * n + c edge = (position outer c + 1) * n + 0 := by rw [hce, Int.add_mul]; omega
              have hin : InDims outer (coordsOf outer (position outer c + 1)) := coordsOf_inDims hwo (by omega) (by omega)
              have := hbulk (upd (coordsOf outer (position outer c + 1)) edge 0) (inDims_upd hnd.2 hin) (by rw [upd_same])
                (by rw [upd_same]; omega)
              rw [position_upd hnd.2, position_coordsOf hwo (by omega) (by omega), upd_same, ← hk] at this
              rw [this, heq _ _ (hj' _ p0 (by omega))]
              exact hxc
            · rw [hce]
              have h1 : (position outer c + 2) * n ≤ Dims.volume outer * n := Int.mul_le_mul_of_nonneg_right (by omega) hn
              rw [Int.add_mul] at h1
              omega

/-! ### folding -/

theorem fold_one_dim {d : Dim} {m : Int} {tg : Dims} (hd : d ≠ Dim.invalid) (hm : 0 ≤ m) (ht : WF tg) (hti : Dim.invalid ∉ labels tg)
    (hv : Dims.volume tg = m) : Dims.fold [(d, m)] d tg = .ok tg := by
  unfold Dims.fold
  have hc : Sizes.contains [(d, m)] d = true := contains_iff.2 (by simp [labels])
  rw [if_neg (by rw [hc]; decide)]
  have := foldOuter_eq d tg ht.2 hti [(d, m)] [] (by simpa using ht.1) (by simpa using hm) (by simpa [labels] using Ne.symm hd)
  simp only [List.flatMap_cons, List.flatMap_nil, if_pos, List.append_nil, List.nil_append] at this
  rw [this]
  simp only [bind, Except.bind]
  rw [if_neg]
  simp [hv]

theorem foldBinEdge_spec {y : CVar V} {outer : Dims} {fromDim edge : Dim} {n : Int} (hy : y.arr.Ok)
    (hd : y.dims = [(fromDim, Dims.volume outer * n + 1)]) (hw : WF (outer ++ [(edge, n)])) (hi : Dim.invalid ∉ labels (outer ++ [(edge, n)])) :
    ∃ z, foldBinEdge y fromDim (outer ++ [(edge, n)]) = .ok z ∧ z.dims = outer ++ [(edge, n + 1)] ∧ z.arr.Ok ∧ z.unit = y.unit ∧ z.kind = y.kind ∧
      ∀ c, z.arr.val c = y.arr.val (upd c fromDim (position outer c * n + c edge)) := by
  have hnd : edge ∉ labels outer := by
    have := hw.1
    rw [labels_append] at this
    exact fun hc => (List.nodup_append.1 this).2.2 edge hc edge (by simp [labels]) rfl
  have hn : 0 ≤ n := hw.2 (edge, n) (by simp)
  have hvol0 : 0 ≤ Dims.volume (outer ++ [(edge, n)]) := volume_nonneg hw.2
  have hvol : Dims.volume (outer ++ [(edge, n)]) = Dims.volume outer * n := by simp
  rw [hvol] at hvol0
  have hyw : WF y.dims := hy.wf
  have hfi : fromDim ≠ Dim.invalid := fun hc => hy.valid (by show Dim.invalid ∈ labels y.dims; rw [hd, hc]; simp [labels])
  have hat : Sizes.at? y.dims fromDim = .ok (Dims.volume outer * n + 1) := by rw [hd]; simp [at?]
  have hcut := range_eq (pre := []) (post := []) (b := 0) (e := Dims.volume outer * n) hd hyw (le_refl _) hvol0 (by omega)
  simp only [List.nil_append, Int.sub_zero, Int.zero_add] at hcut
  have h1 : Dims.volume outer * n + 1 - 1 = Dims.volume outer * n := by omega
  have hinner : Dims.inner (outer ++ [(edge, n)]) = edge := by simp [Dims.inner]
  have hat2 : Sizes.at? (outer ++ [(edge, n)]) edge = .ok n := at?_mid hnd
  have hres : Sizes.resize (outer ++ [(edge, n)]) edge (n + 1) = .ok (outer ++ [(edge, n + 1)]) := resize_mid hnd (by omega)
  have hval : ∀ c c' : Dim → Int, c fromDim = c' fromDim → y.arr.val c = y.arr.val c' := by
    intro c c' h
    refine hy.own _ _ (fun d hdl => ?_)
    change d ∈ labels y.dims at hdl
    rw [hd] at hdl; simp [labels] at hdl
    rw [hdl]; exact h
  have key : foldBinEdge y fromDim (outer ++ [(edge, n)]) = .ok { y with arr := ⟨outer ++ [(edge, n + 1)],
      fun c => y.arr.val (upd (upd c fromDim (foldPosition (outer ++ [(edge, n)]) c)) fromDim
        (upd c fromDim (foldPosition (outer ++ [(edge, n)]) c) fromDim))⟩ } := by
    unfold foldBinEdge
    simp only [hat, h1, hcut]
    unfold fold
    simp only [fold_one_dim hfi hvol0 hw hi hvol, hinner, hat2]
    rw [hres]
  have hfun : ∀ c, y.arr.val (upd (upd c fromDim (foldPosition (outer ++ [(edge, n)]) c)) fromDim
        (upd c fromDim (foldPosition (outer ++ [(edge, n)]) c) fromDim)) = y.arr.val (upd c fromDim (position outer c * n + c edge)) := by
    intro c
    apply hval
    rw [upd_same, upd_same, upd_same, foldPosition_eq]
    exact position_concat _ _ _
  refine ⟨_, key, rfl, ⟨⟨?_, ?_⟩, ?_, fun c c' h => ?_⟩, rfl, rfl, hfun⟩
  · have := hw.1
    rw [labels_append] at this ⊢
    exact this
  · intro p hp
    rcases List.mem_append.1 hp with h | h
    · exact hw.2 p (by simp [h])
    · simp at h; rw [h]; exact Int.le_add_one hn
  · rw [labels_append] at hi ⊢; exact hi
  · rw [labels_append] at h
    refine (hfun c).trans (Eq.trans ?_ (hfun c').symm)
    apply hval
    rw [upd_same, upd_same, h edge (by simp [labels]), position_congr (fun d hdl => h d (by simp [hdl]))]

/-! ### broadcasting -/

theorem addInner_eq {s : Dims} {d : Dim} {n : Int} (hd : d ∉ labels s) (hi : d ≠ Dim.invalid) (hn : 0 ≤ n) :
    Dims.addInner s d n = .ok (s ++ [(d, n)]) := by
  unfold Dims.addInner
  rw [if_neg hi, if_neg (by omega)]
  unfold Sizes.insertRight
  simp [contains_false.2 hd]

/-- Adding labels none of which is there yet. -/
theorem addLabels_new {x D : Dims} : ∀ (mid out : Dims), (labels (out ++ mid)).Nodup → Dim.invalid ∉ labels mid → (∀ p ∈ mid, 0 ≤ p.2) →
    (∀ p ∈ mid, broadcastExtent x D p.1 = .ok p.2) → addLabels x D (labels mid) out = .ok (out ++ mid)
  | [], out, _, _, _, _ => by simp [labels, addLabels]
  | p :: mid, out, hn, hi, h0, hb => by
    have hp : p.1 ∉ labels out := by
      rw [labels_append, labels_cons] at hn
      exact fun hc => (List.nodup_append.1 hn).2.2 p.1 hc p.1 (by simp) rfl
    have hi1 : p.1 ≠ Dim.invalid := fun hc => hi (by rw [labels_cons, hc]; simp)
    rw [labels_cons, addLabels, if_neg (by rw [contains_false.2 hp]; decide), hb p (by simp)]
    simp only [addInner_eq hp hi1 (h0 p (by simp))]
    rw [addLabels_new mid (out ++ [p]) (by simpa using hn) (fun hc => hi (by rw [labels_cons]; simp [hc])) (fun q hq => h0 q (by simp [hq]))
      (fun q hq => hb q (by simp [hq]))]
    simp

/-- Adding labels all of which are there already. -/
theorem addLabels_old {x D : Dims} : ∀ (ls : List Dim) (out : Dims), (∀ l ∈ ls, l ∈ labels out) → addLabels x D ls out = .ok out
  | [], _, _ => rfl
  | l :: ls, out, h => by
    rw [addLabels, if_pos (contains_iff.2 (h l (by simp)))]
    exact addLabels_old ls out (fun m hm => h m (by simp [hm]))

/-- After the labels are there: the rest of the loop appends the remaining dims. -/
theorem broadcastDims_tail {x D : Dims} {ls : List Dim} : ∀ (rest out : Dims), (∀ l ∈ ls, l ∈ labels out) →
    (∀ p ∈ rest, p.1 ∉ ls → at? x p.1 = .ok p.2) → (∀ p ∈ rest, 0 ≤ p.2) → Dim.invalid ∉ labels rest →
    (labels (out ++ rest.filter (fun p => decide (p.1 ∉ ls)))).Nodup →
    broadcastDims x D ls (labels rest) out = .ok (out ++ rest.filter (fun p => decide (p.1 ∉ ls)))
  | [], out, _, _, _, _, _ => by simp [labels, broadcastDims]
  | p :: rest, out, h, hat, h0, hi, hn => by
    have hi' : Dim.invalid ∉ labels rest := fun hc => hi (by rw [labels_cons]; simp [hc])
    rw [labels_cons, broadcastDims]
    by_cases hp : p.1 ∈ ls
    · rw [if_pos hp, addLabels_old ls out h]
      rw [List.filter_cons_of_neg (by simpa using hp)] at hn ⊢
      exact broadcastDims_tail rest out h (fun q hq => hat q (by simp [hq])) (fun q hq => h0 q (by simp [hq])) hi' hn
    · rw [if_neg hp, hat p (by simp) hp]
      rw [List.filter_cons_of_pos (by simpa using hp)] at hn ⊢
      have hpo : p.1 ∉ labels out := by
        rw [labels_append, labels_cons] at hn
        exact fun hc => (List.nodup_append.1 hn).2.2 p.1 hc p.1 (by simp) rfl
      simp only [addInner_eq hpo (fun hc => hi (by rw [labels_cons, hc]; simp)) (h0 p (by simp))]
      rw [broadcastDims_tail rest (out ++ [p]) (fun l hl => by rw [labels_append]; simp [h l hl]) (fun q hq => hat q (by simp [hq]))
        (fun q hq => h0 q (by simp [hq])) hi' (by simpa using hn)]
      simp

/-- Before any of the labels occurs: the loop copies the dims. -/
theorem broadcastDims_pre {x D : Dims} {ls : List Dim} : ∀ (pre rest : Dims) (out : Dims), (∀ p ∈ pre, p.1 ∉ ls) →
    (∀ p ∈ pre, at? x p.1 = .ok p.2) → (∀ p ∈ pre, 0 ≤ p.2) → Dim.invalid ∉ labels pre → (labels (out ++ pre)).Nodup →
    broadcastDims x D ls (labels (pre ++ rest)) out = broadcastDims x D ls (labels rest) (out ++ pre)
  | [], rest, out, _, _, _, _, _ => by simp
  | p :: pre, rest, out, h, hat, h0, hi, hn => by
    have hi' : Dim.invalid ∉ labels pre := fun hc => hi (by rw [labels_cons]; simp [hc])
    have hpo : p.1 ∉ labels out := by
      rw [labels_append, labels_cons] at hn
      exact fun hc => (List.nodup_append.1 hn).2.2 p.1 hc p.1 (by simp) rfl
    rw [List.cons_append, labels_cons, broadcastDims, if_neg (h p (by simp)), hat p (by simp)]
    simp only [addInner_eq hpo (fun hc => hi (by rw [labels_cons, hc]; simp)) (h0 p (by simp))]
    rw [broadcastDims_pre pre rest (out ++ [p]) (fun q hq => h q (by simp [hq])) (fun q hq => hat q (by simp [hq]))
      (fun q hq => h0 q (by simp [hq])) hi' (by simpa using hn)]
    simp

/-- `maybe_broadcast` of a variable that has at least one of the labels: all labels are inserted at the position of the first one. -/
theorem maybeBroadcast_eq {x : CVar V} {D mid : Dims} (hx : x.arr.Ok) (hm : WF mid) (hmi : Dim.invalid ∉ labels mid)
    (hb : ∀ p ∈ mid, broadcastExtent x.dims D p.1 = .ok p.2) (hex : ∃ d ∈ labels x.dims, d ∈ labels mid) :
    ∃ pre rest, (∀ p, p ∈ pre ∨ p ∈ rest ↔ p ∈ x.dims ∧ p.1 ∉ labels mid) ∧ (labels (pre ++ mid ++ rest)).Nodup ∧
      maybeBroadcast x (labels mid) D = .ok { x with arr := ⟨pre ++ mid ++ rest, x.arr.val⟩ } := by
  have hw : WF x.dims := hx.wf
  have hv : Dim.invalid ∉ labels x.dims := hx.valid
  obtain ⟨pre, q, post, hsplit, hpre, hq⟩ : ∃ pre q post, x.dims = pre ++ q :: post ∧ (∀ p ∈ pre, p.1 ∉ labels mid) ∧ q.1 ∈ labels mid := by
    clear hb
    generalize x.dims = l at hex
    induction l with
    | nil => obtain ⟨d, hd, _⟩ := hex; simp [labels] at hd
    | cons a l ih =>
      by_cases ha : a.1 ∈ labels mid
      · exact ⟨[], a, l, rfl, by simp, ha⟩
      · obtain ⟨d, hd, hdm⟩ := hex
        rw [labels_cons, List.mem_cons] at hd
        obtain ⟨pre, q, post, h1, h2, h3⟩ := ih ⟨d, hd.resolve_left (fun hc => ha (hc ▸ hdm)), hdm⟩
        refine ⟨a :: pre, q, post, by rw [h1]; rfl, ?_, h3⟩
        intro p hp
        rcases List.mem_cons.1 hp with h | h
        · rw [h]; exact ha
        · exact h2 p h
  have hnd := hw.1
  rw [hsplit, labels_append, labels_cons] at hnd
  obtain ⟨n1, n2, n3⟩ := List.nodup_append.1 hnd
  rw [List.nodup_cons] at n2
  have hat : ∀ p ∈ x.dims, at? x.dims p.1 = .ok p.2 := fun p hp => at?_of_mem hw.1 hp
  have hpx : ∀ p ∈ pre, p ∈ x.dims := fun p hp => by rw [hsplit]; simp [hp]
  have hrx : ∀ p ∈ q :: post, p ∈ x.dims := fun p hp => by rw [hsplit]; simp [List.mem_cons.1 hp]
  have hlf : ∀ d, d ∈ labels (post.filter (fun p => decide (p.1 ∉ labels mid))) → d ∈ labels post ∧ d ∉ labels mid := by
    intro d hd
    simp only [labels, List.mem_map] at hd ⊢
    obtain ⟨p, hp, rfl⟩ := hd
    have := List.mem_filter.1 hp
    exact ⟨⟨p, this.1, rfl⟩, by simpa [labels] using this.2⟩
  have hpm : (labels (pre ++ mid)).Nodup := by
    rw [labels_append]
    refine List.nodup_append.2 ⟨n1, hm.1, fun a ha b hb' hab => ?_⟩
    simp only [labels, List.mem_map] at ha
    obtain ⟨p, hp, rfl⟩ := ha
    exact hpre p hp (hab ▸ hb')
  have hnod : (labels (pre ++ mid ++ post.filter (fun p => decide (p.1 ∉ labels mid)))).Nodup := by
    rw [labels_append]
    refine List.nodup_append.2 ⟨hpm, ?_, fun a ha b hb' hab => ?_⟩
    · exact n2.2.sublist (List.Sublist.map _ List.filter_sublist)
    · obtain ⟨h1, h2⟩ := hlf b hb'
      rw [labels_append, List.mem_append] at ha
      rcases ha with h | h
      · exact n3 a h b (by simp [h1]) hab
      · exact h2 (hab ▸ h)
  have hbd : broadcastDims x.dims D (labels mid) (labels x.dims) [] = .ok (pre ++ mid ++ post.filter (fun p => decide (p.1 ∉ labels mid))) := by
    conv => lhs; arg 4; rw [hsplit]
    rw [broadcastDims_pre pre (q :: post) [] hpre (fun p hp => hat p (hpx p hp)) (fun p hp => hw.2 p (hpx p hp))
      (fun hc => hv (by rw [hsplit, labels_append]; simp [hc])) (by simpa using n1)]
    rw [labels_cons, broadcastDims, if_pos hq, List.nil_append, addLabels_new mid pre hpm hmi hm.2 hb]
    exact broadcastDims_tail post (pre ++ mid) (fun l hl => by rw [labels_append]; simp [hl])
      (fun p hp _ => hat p (hrx p (by simp [hp]))) (fun p hp => hw.2 p (hrx p (by simp [hp])))
      (fun hc => hv (by rw [hsplit, labels_append, labels_cons]; simp [hc])) hnod
  have hmem : ∀ p, p ∈ pre ∨ p ∈ post.filter (fun p => decide (p.1 ∉ labels mid)) ↔ p ∈ x.dims ∧ p.1 ∉ labels mid := by
    intro p
    rw [hsplit]
    simp only [List.mem_filter, decide_eq_true_eq, List.mem_append, List.mem_cons]
    constructor
    · rintro (h | h)
      · exact ⟨.inl h, hpre p h⟩
      · exact ⟨.inr (.inr h.1), h.2⟩
    · rintro ⟨h | h | h, h2⟩
      · exact .inl h
      · exact absurd (h ▸ hq) h2
      · exact .inr ⟨h, h2⟩
  refine ⟨pre, _, hmem, hnod, ?_⟩
  unfold maybeBroadcast
  rw [hbd]
  show CVar.broadcast x _ = _
  unfold CVar.broadcast
  rw [if_neg]
  have : Sizes.includes (pre ++ mid ++ post.filter (fun p => decide (p.1 ∉ labels mid))) x.dims = true := by
    unfold Sizes.includes
    rw [List.all_eq_true]
    intro p hp
    have hmemp : p ∈ pre ++ mid ++ post.filter (fun p => decide (p.1 ∉ labels mid)) := by
      by_cases h : p.1 ∈ labels mid
      · obtain ⟨r, hr, hrp⟩ := List.mem_map.1 h
        have h1 := hb r hr
        unfold broadcastExtent at h1
        rw [hrp, if_pos (contains_iff.2 (mem_labels hp)), hat p hp] at h1
        have h2 : r = p := Prod.ext hrp (Except.ok.inj h1).symm
        rw [h2] at hr
        simp [hr]
      · have := (hmem p).2 ⟨hp, h⟩
        rcases this with h1 | h1
        · simp [h1]
        · exact List.mem_append_right _ h1
    simp only [Bool.and_eq_true, decide_eq_true_eq]
    refine ⟨contains_iff.2 (mem_labels hmemp), ?_⟩
    rw [at?_of_mem hnod hmemp, hat p hp]
  rw [this]; decide

end Scipp.Flat

namespace Scipp.Flat
open Scipp Scipp.Sizes Scipp.Concat
variable {V : Type}

theorem searchIdx_mid {pre mid rest : Dims} (hm : mid ≠ []) (hn : (labels (pre ++ mid ++ rest)).Nodup) :
    searchIdx (labels mid) (labels (pre ++ mid ++ rest)) = some pre.length := by
  obtain ⟨i, hi⟩ := searchIdx_exists (pat := labels mid) (l := labels (pre ++ mid ++ rest)) (a := labels pre) (b := labels rest)
    (by rw [labels_append, labels_append])
  rw [hi]
  obtain ⟨a, b, hab, hl⟩ := searchIdx_some hi
  cases mid with
  | nil => exact absurd rfl hm
  | cons q mid =>
    have h1 : (labels (pre ++ (q :: mid) ++ rest))[i]? = some q.1 := by
      rw [hab, List.append_assoc, List.getElem?_append_right (by omega)]
      simp [labels, hl]
    have h2 : (labels (pre ++ (q :: mid) ++ rest))[pre.length]? = some q.1 := by
      rw [labels_append, labels_append, List.append_assoc, List.getElem?_append_right (by simp [labels])]
      simp [labels]
    have hlt : i < (labels (pre ++ (q :: mid) ++ rest)).length := by
      by_contra hc
      rw [List.getElem?_eq_none (by omega)] at h1
      cases h1
    rw [(List.getElem?_inj hlt hn).1 (h1.trans h2.symm)]

theorem flatten_mid {x : CVar V} {pre mid rest : Dims} {toDim : Dim} (hd : x.dims = pre ++ mid ++ rest) (hm : mid ≠ [])
    (hn : (labels (pre ++ mid ++ rest)).Nodup) (ht : toDim ∉ labels (pre ++ rest)) :
    flatten x (labels mid) toDim = .ok { x with arr := ⟨pre ++ (toDim, Dims.volume mid) :: rest,
      fun c => x.arr.val (fun d => if d ∈ labels mid then coordsOf mid (c toDim) d else c d)⟩ } := by
  have hl : labels mid ≠ [] := by
    cases mid with
    | nil => exact absurd rfl hm
    | cons q mid => simp [labels]
  have hlen : (labels mid).length = mid.length := by simp [labels]
  have hdrop : (pre ++ mid ++ rest).drop pre.length = mid ++ rest := by rw [List.append_assoc, List.drop_left]
  have htake : (pre ++ mid ++ rest).take pre.length = pre := by rw [List.append_assoc, List.take_left]
  have hdrop2 : (pre ++ mid ++ rest).drop (pre.length + mid.length) = rest := by
    rw [← List.length_append, List.drop_left]
  unfold flatten
  rw [if_neg hl, hd, searchIdx_mid hm hn]
  simp only [hlen, hdrop, htake, hdrop2, List.take_left]
  rw [if_neg ht]

theorem mem_isEdges_false {D x : Dims} {d e : Dim} {n : Int} (hD : WF D) (hx : WF x) (he : (e, n) ∈ D) (hex : (e, n + 1) ∈ x) (hde : d ≠ e) :
    Sizes.isEdges D x d = false := by
  unfold Sizes.isEdges
  split
  · rfl
  · rw [if_pos]
    refine ⟨?_, ?_⟩
    · cases D with
      | nil => cases he
      | cons a l => rfl
    · rw [List.any_eq_true]
      refine ⟨(e, n + 1), hex, ?_⟩
      have h1 : Sizes.at? D e = .ok n := at?_of_mem hD.1 he
      have h2 : Sizes.at? x e = .ok (n + 1) := at?_of_mem hx.1 hex
      simp only [h1, h2]
      have : ¬ (Except.ok n : Except Err Int) = .ok (n + 1) := fun hc => by have := Except.ok.inj hc; omega
      simp [this, Ne.symm hde]

theorem isEdges_false_of_mem {D x : Dims} {d : Dim} {n : Int} (hD : WF D) (hx : WF x) (h1 : (d, n) ∈ D) (h2 : d ∈ labels x → (d, n) ∈ x) :
    Sizes.isEdges D x d = false := by
  unfold Sizes.isEdges
  split
  · rfl
  · rename_i h
    rw [not_or] at h
    have hm : d ∈ labels x := contains_iff.1 (by simpa using h.2)
    split
    · rfl
    · rw [at?_of_mem hx.1 (h2 hm), at?_of_mem hD.1 h1]
      simp

theorem isEdges_true {D x : Dims} {e : Dim} {n : Int} (hD : WF D) (hx : WF x) (hi : e ≠ Dim.invalid) (he : (e, n) ∈ D) (hex : (e, n + 1) ∈ x)
    (ho : ∀ p ∈ x, p.1 ≠ e → p ∈ D) : Sizes.isEdges D x e = true := by
  unfold Sizes.isEdges
  rw [if_neg, if_neg]
  · rw [at?_of_mem hx.1 hex, at?_of_mem hD.1 he]
    simp
  · rintro ⟨_, h⟩
    rw [List.any_eq_true] at h
    obtain ⟨p, hp, h⟩ := h
    simp only [Bool.and_eq_true, bne_iff_ne, ne_eq, Bool.not_eq_true', Bool.and_eq_false_iff] at h
    have hpD := ho p hp h.1
    rcases h.2 with h3 | h3
    · rw [contains_iff.2 (mem_labels hpD)] at h3; cases h3
    · rw [at?_of_mem hD.1 hpD, at?_of_mem hx.1 hp] at h3; simp at h3
  · rintro (h | h)
    · exact hi h
    · rw [contains_iff.2 (mem_labels hex)] at h; cases h

end Scipp.Flat
