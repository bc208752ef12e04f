import Verif.Lemmas.MultiIndex
/-!
Lemmas on `MultiIndex` with bins.
-/
namespace Scipp
open Sizes
variable {N : Nat}

/-- Dims of the bins as used by the iterator, with their number `nb`: a scalar has one bin. -/
def OuterOk (O : List (Int × Vec N)) (nb : Int) : Prop :=
  (AllPos O ∧ O ≠ [] ∧ nb = fvol O) ∨ (O = [(0, 0)] ∧ nb = 1)

theorem extract_cons_exists (k : Int) (ss : List Int) : ∃ c cs, extractIndices k ss = c :: cs := by
  have : (extractIndices k ss).length ≠ 0 := by rw [extract_length]; omega
  cases hx : extractIndices k ss with
  | nil => rw [hx] at this; simp at this
  | cons a b => exact ⟨a, b, rfl⟩

theorem extract_getLast {M : Type} [AddCommGroup M] : ∀ (L : List (Int × M)) (k : Int), AllPos L → L ≠ [] → 0 ≤ k → k ≤ fvol L →
    ((extractIndices k (L.map Prod.fst)).getLast? = (L.getLast?).map (fun p => max p.1 1) ↔ k = fvol L)
  | [], _, _, h, _, _ => absurd rfl h
  | [p], k, hp, _, _, _ => by
    have := hp.head
    simp [extractIndices, fvol]
    omega
  | p :: q :: L, k, hp, _, h0, h1 => by
    have hs := hp.head
    have hk : 0 ≤ k / p.1 := Int.ediv_nonneg h0 (le_of_lt hs)
    have hle : k / p.1 ≤ fvol (q :: L) := by
      have : k / p.1 ≤ (p.1 * fvol (q :: L)) / p.1 := Int.ediv_le_ediv hs (by simpa [fvol] using h1)
      rwa [Int.mul_ediv_cancel_left _ (by omega)] at this
    have ih := extract_getLast (q :: L) (k / p.1) hp.tail (by simp) hk hle
    simp only [List.map_cons] at ih ⊢
    rw [extract_cons2 h0 hs]
    obtain ⟨c, cs, hc⟩ := extract_cons_exists (k / p.1) (q.1 :: L.map Prod.fst)
    rw [hc] at ih ⊢
    rw [List.getLast?_cons_cons, List.getLast?_cons_cons, ih]
    have hem := Int.emod_add_mul_ediv k p.1
    have hm0 := Int.emod_nonneg k (show p.1 ≠ 0 by omega)
    constructor
    · intro h
      have h2 : k ≤ p.1 * fvol (q :: L) := by simpa [fvol] using h1
      rw [h] at hem
      show k = p.1 * fvol (q :: L)
      omega
    · intro h
      rw [h]
      exact Int.mul_ediv_cancel_left _ (by omega)

theorem OuterOk.pos {O : List (Int × Vec N)} {nb : Int} (h : OuterOk O nb) : 0 < nb := by
  rcases h with ⟨h, _, rfl⟩ | ⟨_, rfl⟩
  · exact fvol_pos h
  · decide

theorem OuterOk.atEnd {O : List (Int × Vec N)} {nb b : Int} (h : OuterOk O nb) (h0 : 0 ≤ b) (h1 : b ≤ nb) :
    ((extractIndices b (dimSizes O)).getLast? = (O.getLast?).map (fun p => max p.1 1)) ↔ b = nb := by
  rcases h with ⟨h, hne, rfl⟩ | ⟨rfl, rfl⟩
  · exact extract_getLast O b h hne h0 h1
  · simp [dimSizes, extractIndices]

theorem OuterOk.inj {O : List (Int × Vec N)} {nb b b' : Int} (h : OuterOk O nb) (h0 : 0 ≤ b) (h0' : 0 ≤ b')
    (e : extractIndices b (dimSizes O) = extractIndices b' (dimSizes O)) : b = b' := by
  rcases h with ⟨h, hne, rfl⟩ | ⟨rfl, rfl⟩
  · exact extract_inj _ _ _ (sizes_pos h) h0 h0' e
  · simpa [dimSizes, extractIndices] using e

/-- Advancing the bin. -/
theorem OuterOk.inc {p : Int × Vec N} {O : List (Int × Vec N)} {nb b c : Int} {cs : List Int}
    (h : OuterOk (p :: O) nb) (h0 : 0 ≤ b) (h1 : b < nb)
    (hc : extractIndices b (dimSizes (p :: O)) = c :: cs) :
    (if c + 1 = max p.1 1 then incInDims (p :: O) ((c + 1) :: cs) (dot (p :: O) (c :: cs) + p.2)
      else ((c + 1) :: cs, dot (p :: O) (c :: cs) + p.2)) =
    (extractIndices (b + 1) (dimSizes (p :: O)), dot (p :: O) (extractIndices (b + 1) (dimSizes (p :: O)))) := by
  have e1 : (if c + 1 = max p.1 1 then incInDims (p :: O) ((c + 1) :: cs) (dot (p :: O) (c :: cs) + p.2)
      else ((c + 1) :: cs, dot (p :: O) (c :: cs) + p.2)) =
      incInDims (p :: O) ((c + 1) :: cs) (dot (p :: O) (c :: cs) + p.2) := by
    split
    · rfl
    · rename_i hne; rw [incInDims_noop hne]
  rw [e1]
  have hd := incInDims_data (p :: O) ((c + 1) :: cs) (dot (p :: O) (c :: cs) + p.2)
  have hz : dot (p :: O) (c :: cs) + p.2 - dot (p :: O) ((c + 1) :: cs) = 0 := by
    simp only [dot, add_smul, one_smul]; abel
  rw [hz] at hd
  have hfst : (incInDims (p :: O) ((c + 1) :: cs) (dot (p :: O) (c :: cs) + p.2)).1 =
      extractIndices (b + 1) (dimSizes (p :: O)) := by
    rcases h with ⟨h, hne, rfl⟩ | ⟨e, rfl⟩
    · refine incInDims_coord O p b 1 _ c cs h h0 (by omega) (fun hO => ?_) hc
      obtain ⟨q, L, rfl⟩ : ∃ q L, O = q :: L := by
        cases O with
        | nil => exact absurd rfl hO
        | cons q L => exact ⟨q, L, rfl⟩
      simp only [dimSizes, List.map_cons] at hc
      rw [extract_cons2 h0 h.head] at hc
      injection hc with hc _
      have := Int.emod_lt_of_pos b h.head
      omega
    · injection e with e1 e2
      subst e1; subst e2
      simp only [dimSizes, List.map_cons, List.map_nil, extractIndices] at hc ⊢
      injection hc with h1 h2
      subst h1; subst h2
      simp [incInDims]
  ext1
  · exact hfst
  · rw [← hfst]; exact sub_eq_zero.1 hd

/-! ### State -/

/-- The parts of the state that are fixed at construction. -/
structure BFrame (X rest O : List (Int × Vec N)) (nst : Vec N) (scalar : Bool) (isB : Fin N → Bool)
    (ind : Fin N → Option (Int → Int × Int)) (m : BinnedIndex N) : Prop where
  inner : ∃ s, m.inner = X ++ (s, nst) :: rest
  outer : m.outer = O
  sc : m.scalar = scalar
  nested : m.nested = X.length
  isb : m.isBinned = isB
  inds : m.indices = ind

section
variable {X rest O : List (Int × Vec N)} {nst : Vec N} {scalar : Bool} {isB : Fin N → Bool}
  {ind : Fin N → Option (Int → Int × Int)}

theorem modifyMid (X rest : List (Int × Vec N)) (s x : Int) (nst : Vec N) :
    (X ++ (s, nst) :: rest).modify X.length (fun p => (x, p.2)) = X ++ (x, nst) :: rest := by
  induction X with
  | nil => rfl
  | cons a X ih => simp [ih]

theorem get_mid (X rest : List (Int × Vec N)) (s : Int) (nst : Vec N) :
    (X ++ (s, nst) :: rest)[X.length]? = some (s, nst) := by
  simp

theorem BFrame.nestedSize {m : BinnedIndex N} (h : BFrame X rest O nst scalar isB ind m) :
    m.inner = X ++ (m.nestedSize, nst) :: rest := by
  obtain ⟨s, hs⟩ := h.inner
  have : m.nestedSize = s := by simp [BinnedIndex.nestedSize, hs, h.nested]
  rw [this, hs]

theorem BFrame.load {m : BinnedIndex N} (h : BFrame X rest O nst scalar isB ind m) (i : Fin N) :
    BFrame X rest O nst scalar isB ind (m.loadBinParams i) ∧
    (m.loadBinParams i).innerCoord = m.innerCoord ∧ (m.loadBinParams i).outerCoord = m.outerCoord ∧
    (m.loadBinParams i).binIndex = m.binIndex := by
  obtain ⟨s, hs⟩ := h.inner
  simp only [BinnedIndex.loadBinParams]
  split
  · exact ⟨⟨h.inner, h.outer, h.sc, h.nested, h.isb, h.inds⟩, rfl, rfl, rfl⟩
  · split
    · split
      · rename_i f hf
        refine ⟨⟨⟨(f (m.binIndex i)).2 - (f (m.binIndex i)).1, ?_⟩, h.outer, h.sc, h.nested, h.isb, h.inds⟩, rfl, rfl, rfl⟩
        simp only [BinnedIndex.setNestedSize, hs, h.nested, modifyMid]
      · refine ⟨⟨⟨0, ?_⟩, h.outer, h.sc, h.nested, h.isb, h.inds⟩, rfl, rfl, rfl⟩
        simp only [BinnedIndex.setNestedSize, hs, h.nested, modifyMid]
    · exact ⟨h, rfl, rfl, rfl⟩

theorem BFrame.loadList (l : List (Fin N)) : ∀ {m : BinnedIndex N}, BFrame X rest O nst scalar isB ind m →
    BFrame X rest O nst scalar isB ind (l.foldl BinnedIndex.loadBinParams m) ∧
    (l.foldl BinnedIndex.loadBinParams m).innerCoord = m.innerCoord ∧
    (l.foldl BinnedIndex.loadBinParams m).outerCoord = m.outerCoord ∧
    (l.foldl BinnedIndex.loadBinParams m).binIndex = m.binIndex := by
  induction l with
  | nil => intro m h; exact ⟨h, rfl, rfl, rfl⟩
  | cons i l ih =>
    intro m h
    obtain ⟨a, b, c, d⟩ := h.load i
    obtain ⟨a', b', c', d'⟩ := ih a
    exact ⟨a', b'.trans b, c'.trans c, d'.trans d⟩

theorem BFrame.atEnd_congr {m m' : BinnedIndex N} (h : BFrame X rest O nst scalar isB ind m)
    (h' : BFrame X rest O nst scalar isB ind m') (e : m'.outerCoord = m.outerCoord) : m'.atEnd = m.atEnd := by
  simp [BinnedIndex.atEnd, e, h.outer, h'.outer]

/-- Offset of operand `i` at the start of a bin, for bin coordinates `cs`. -/
def binBase (O : List (Int × Vec N)) (nst : Vec N) (isB : Fin N → Bool)
    (ind : Fin N → Option (Int → Int × Int)) (cs : List Int) : Vec N := fun i =>
  if isB i then
    match ind i with
    | some f => nst i * (f (dot O cs i)).1
    | none => 0
  else dot O cs i

theorem dot_zero : ∀ (L : List (Int × Vec N)) (cs : List Int), (∀ c ∈ cs, c = 0) → dot L cs = 0
  | [], _, _ => by simp [dot]
  | _ :: _, [], _ => by simp [dot]
  | p :: L, c :: cs, h => by
    rw [dot, h c (by simp), dot_zero L cs (fun x hx => h x (List.mem_cons_of_mem _ hx))]
    simp

/-- Loading a bin: data at the start of the bin, size of the bin. `S` is the common size of
the current bins of all binned operands. -/
theorem BFrame.loadAll {m : BinnedIndex N} (h : BFrame X rest O nst scalar isB ind m) (hend : m.atEnd = false)
    (hz : ∀ c ∈ m.innerCoord, c = 0) (hb : m.binIndex = dot O m.outerCoord) {S : Int}
    (hS : ∀ i, isB i = true → ∃ f, ind i = some f ∧
      (f (dot O m.outerCoord i)).2 - (f (dot O m.outerCoord i)).1 = S)
    (hany : ∃ i, isB i = true) :
    BFrame X rest O nst scalar isB ind m.loadAll ∧ m.loadAll.innerCoord = m.innerCoord ∧
    m.loadAll.outerCoord = m.outerCoord ∧ m.loadAll.binIndex = m.binIndex ∧
    m.loadAll.nestedSize = S ∧ m.loadAll.data = binBase O nst isB ind m.outerCoord := by
  have key : ∀ (l : List (Fin N)) (x : BinnedIndex N), BFrame X rest O nst scalar isB ind x →
      x.innerCoord = m.innerCoord → x.outerCoord = m.outerCoord → x.binIndex = m.binIndex →
      (∀ i, (l.foldl BinnedIndex.loadBinParams x).data i =
        if i ∈ l then binBase O nst isB ind m.outerCoord i else x.data i) ∧
      ((∃ i ∈ l, isB i = true) ∨ x.nestedSize = S → (l.foldl BinnedIndex.loadBinParams x).nestedSize = S) := by
    intro l
    induction l with
    | nil => intro x _ _ _ _; simp
    | cons i l ih =>
      intro x hx h1 h2 h3
      obtain ⟨a, b, c, d⟩ := hx.load i
      obtain ⟨hdat, hsz⟩ := ih _ a (b.trans h1) (c.trans h2) (d.trans h3)
      have hxe : x.atEnd = false := by rw [BFrame.atEnd_congr h hx h2, hend]
      -- the effect of one load
      have hone : (x.loadBinParams i).data = Function.update x.data i (binBase O nst isB ind m.outerCoord i) ∧
          ((x.loadBinParams i).nestedSize = if isB i then S else x.nestedSize) := by
        obtain ⟨s, hs⟩ := hx.inner
        simp only [BinnedIndex.loadBinParams, hx.isb]
        cases hbi : isB i with
        | false =>
          simp only [Bool.not_false, if_true]
          refine ⟨?_, rfl⟩
          simp only [binBase, hbi, flatVec_eq, hx.outer, h2]
          rw [dot_zero x.inner _ (by rw [h1]; exact hz)]
          simp
        | true =>
          obtain ⟨f, hf, hfS⟩ := hS i hbi
          simp only [Bool.not_true, Bool.false_eq_true, if_false, hxe, Bool.not_false, if_true, hx.inds, hf]
          constructor
          · simp only [binBase, hbi, if_true, hf, hs, hx.nested, get_mid, h3, hb]
            rfl
          · have : BFrame X rest O nst scalar isB ind (x.loadBinParams i) := a
            simp only [BinnedIndex.nestedSize, BinnedIndex.setNestedSize, hs, hx.nested, modifyMid, get_mid, h3, hb,
              hfS]
            rfl
      refine ⟨fun j => ?_, fun hor => hsz ?_⟩
      · rw [List.foldl_cons, hdat j, hone.1]
        by_cases hj : j ∈ l
        · simp [hj]
        · by_cases hji : j = i
          · subst hji; simp [hj]
          · simp [hj, hji]
      · rw [hone.2]
        by_cases hbi : isB i = true
        · right; rw [if_pos hbi]
        · rw [if_neg hbi]
          rcases hor with ⟨j, hj, hjb⟩ | hor
          · rcases List.mem_cons.1 hj with rfl | hj
            · exact absurd hjb hbi
            · exact .inl ⟨j, hj, hjb⟩
          · exact .inr hor
  obtain ⟨fr, ic, oc, bi⟩ := BFrame.loadList (List.finRange N) h
  obtain ⟨hd, hs⟩ := key (List.finRange N) m h rfl rfl rfl
  refine ⟨fr, ic, oc, bi, hs (.inl ?_), ?_⟩
  · obtain ⟨i, hi⟩ := hany
    exact ⟨i, List.mem_finRange i, hi⟩
  · funext i
    have := hd i
    rw [if_pos (List.mem_finRange i)] at this
    exact this

/-- At bin `b`, first element (`b = nb` is the end, where nothing is loaded). -/
structure AtBin (X rest O : List (Int × Vec N)) (nst : Vec N) (scalar : Bool) (isB : Fin N → Bool)
    (ind : Fin N → Option (Int → Int × Int)) (S : Int → Int) (nb : Int) (b : Int) (m : BinnedIndex N) : Prop where
  frame : BFrame X rest O nst scalar isB ind m
  ic : m.innerCoord = m.inner.map (fun _ => 0)
  oc : m.outerCoord = extractIndices b (dimSizes O)
  bi : b < nb → m.binIndex = dot O m.outerCoord
  loaded : b < nb → m.nestedSize = S b ∧ m.data = binBase O nst isB ind m.outerCoord

/-- Sizes of the bins as seen by all binned operands. -/
def SizesOk (O : List (Int × Vec N)) (isB : Fin N → Bool) (ind : Fin N → Option (Int → Int × Int))
    (S : Int → Int) (nb : Int) : Prop :=
  ∀ b, 0 ≤ b → b < nb → ∀ i, isB i = true → ∃ f, ind i = some f ∧
    (f (dot O (extractIndices b (dimSizes O)) i)).2 - (f (dot O (extractIndices b (dimSizes O)) i)).1 = S b

variable {S : Int → Int} {nb : Int}

theorem BFrame.incrementBins_spec {m : BinnedIndex N} (h : BFrame X rest O nst scalar isB ind m)
    (hO : OuterOk O nb) (hS : SizesOk O isB ind S nb) (hany : ∃ i, isB i = true) {b : Int} (h0 : 0 ≤ b) (h1 : b < nb)
    (hoc : m.outerCoord = extractIndices b (dimSizes O)) (hbi : m.binIndex = dot O m.outerCoord) :
    AtBin X rest O nst scalar isB ind S nb (b + 1) m.incrementBins := by
  obtain ⟨p, O', rfl⟩ : ∃ p O', O = p :: O' := by
    rcases hO with ⟨_, hne, _⟩ | ⟨rfl, _⟩
    · cases O with
      | nil => exact absurd rfl hne
      | cons p O' => exact ⟨p, O', rfl⟩
    · exact ⟨_, _, rfl⟩
  obtain ⟨c, cs, hc⟩ := extract_cons_exists b (dimSizes (p :: O'))
  have hinc := hO.inc h0 h1 hc
  rw [hc] at hoc
  rw [hoc] at hbi
  simp only [BinnedIndex.incrementBins, h.outer, hoc, hbi, hinc]
  generalize hx : extractIndices (b + 1) (dimSizes (p :: O')) = x
  generalize hy : dot (p :: O') x = y
  generalize hm' : ({ m with innerCoord := m.inner.map (fun _ => 0), outer := p :: O', outerCoord := x, binIndex := y } : BinnedIndex N) = m'
  subst hx
  subst hy
  have fr : BFrame X rest (p :: O') nst scalar isB ind m' := by
    subst hm'; exact ⟨h.inner, rfl, h.sc, h.nested, h.isb, h.inds⟩
  have hoc' : m'.outerCoord = extractIndices (b + 1) (dimSizes (p :: O')) := by subst hm'; rfl
  have hic' : m'.innerCoord = m'.inner.map (fun _ => 0) := by subst hm'; rfl
  have hbi' : m'.binIndex = dot (p :: O') m'.outerCoord := by subst hm'; rfl
  have hend : m'.atEnd = true ↔ b + 1 = nb := by
    simp only [BinnedIndex.atEnd, decide_eq_true_eq, fr.outer, hoc']
    exact hO.atEnd (by omega) (by omega)
  by_cases he : b + 1 = nb
  · rw [if_neg (by rw [hend.2 he]; simp)]
    exact ⟨fr, hic', hoc', fun _ => hbi', fun hh => by omega⟩
  · have hf : m'.atEnd = false := by
      cases hx : m'.atEnd with
      | false => rfl
      | true => exact absurd (hend.1 hx) he
    rw [if_pos (by rw [hf]; rfl)]
    obtain ⟨a1, a2, a3, a4, a5, a6⟩ := fr.loadAll hf (by rw [hic']; simp) hbi' (S := S (b + 1)) (by
      intro i hi
      rw [hoc']
      exact hS (b + 1) (by omega) (by omega) i hi) hany
    refine ⟨a1, ?_, a3.trans hoc', fun _ => by rw [a4, hbi', a3], fun _ => ⟨a5, by rw [a6, a3]⟩⟩
    rw [a2, hic']
    obtain ⟨s, hs⟩ := fr.inner
    obtain ⟨s', hs'⟩ := a1.inner
    rw [hs, hs']; simp

theorem AtBin.atEnd_iff {m : BinnedIndex N} {b : Int} (hO : OuterOk O nb)
    (h : AtBin X rest O nst scalar isB ind S nb b m) (h0 : 0 ≤ b) (h1 : b ≤ nb) : m.atEnd = true ↔ b = nb := by
  simp only [BinnedIndex.atEnd, decide_eq_true_eq, h.frame.outer, h.oc]
  exact hO.atEnd h0 h1

/-- `seek_bin` stops at the next non-empty bin, or at the end. -/
theorem seekBin_spec (hO : OuterOk O nb) (hS : SizesOk O isB ind S nb) (hany : ∃ i, isB i = true) :
    ∀ (fuel : Nat) (m : BinnedIndex N) (b : Int), BFrame X rest O nst scalar isB ind m → 0 ≤ b → b < nb →
    m.outerCoord = extractIndices b (dimSizes O) → m.binIndex = dot O m.outerCoord → nb - b ≤ fuel →
    ∃ m' b', m.seekBin fuel = some m' ∧ AtBin X rest O nst scalar isB ind S nb b' m' ∧ b < b' ∧ b' ≤ nb ∧
      (∀ x, b < x → x < b' → S x = 0) ∧ (b' < nb → S b' ≠ 0) := by
  intro fuel
  induction fuel with
  | zero => intro m b _ _ _ _ _ h; simp at h; omega
  | succ fuel ih =>
    intro m b h h0 h1 hoc hbi hf
    have hat := h.incrementBins_spec hO hS hany h0 h1 hoc hbi
    have hend := hat.atEnd_iff hO (by omega) (by omega)
    simp only [BinnedIndex.seekBin]
    by_cases he : b + 1 = nb
    · rw [if_neg (by rw [hend.2 he]; simp)]
      exact ⟨_, b + 1, rfl, hat, by omega, by omega, fun x _ _ => by omega, fun _ => by omega⟩
    · have hef : m.incrementBins.atEnd = false := by
        cases hx : m.incrementBins.atEnd with
        | false => rfl
        | true => exact absurd (hend.1 hx) he
      obtain ⟨hns, _⟩ := hat.loaded (by omega)
      by_cases hz : S (b + 1) = 0
      · rw [if_pos (by rw [hns, hef]; exact ⟨hz, rfl⟩)]
        obtain ⟨m', b', e1, e2, e3, e4, e5, e6⟩ := ih _ (b + 1) hat.frame (by omega) (by omega) hat.oc
          (hat.bi (by omega)) (by push_cast at hf; omega)
        refine ⟨m', b', e1, e2, by omega, e4, fun x hx hx' => ?_, e6⟩
        by_cases hxb : x = b + 1
        · rw [hxb]; exact hz
        · exact e5 x (by omega) hx'
      · rw [if_neg (by rw [hns]; exact fun hh => hz hh.1)]
        exact ⟨_, b + 1, rfl, hat, by omega, by omega, fun x _ _ => by omega, fun _ => hz⟩

theorem map_zero_inner {m m' : BinnedIndex N} (h : BFrame X rest O nst scalar isB ind m)
    (h' : BFrame X rest O nst scalar isB ind m') :
    m.inner.map (fun _ => (0 : Int)) = m'.inner.map (fun _ => 0) := by
  obtain ⟨s, hs⟩ := h.inner
  obtain ⟨s', hs'⟩ := h'.inner
  rw [hs, hs']; simp

/-- `set_index(k)` goes to the first non-empty bin from `k` on. -/
theorem setIndex_spec (hO : OuterOk O nb) (hsc : scalar = true ↔ O = [(0, 0)]) (hS : SizesOk O isB ind S nb)
    (hany : ∃ i, isB i = true) {fuel : Nat} {m : BinnedIndex N} {k : Int}
    (h : BFrame X rest O nst scalar isB ind m) (h0 : 0 ≤ k) (h1 : k ≤ nb) (hf : nb ≤ fuel) :
    ∃ m' b', m.setIndex fuel k = some m' ∧ AtBin X rest O nst scalar isB ind S nb b' m' ∧ k ≤ b' ∧ b' ≤ nb ∧
      (∀ x, k ≤ x → x < b' → S x = 0) ∧ (b' < nb → S b' ≠ 0) := by
  -- coordinates before loading
  obtain ⟨m1, hm1, fr1, hic1, hoc1⟩ : ∃ m1, (if m.scalar = true ∧ k ≠ 0 then m.setToEndBin
      else { m with innerCoord := m.inner.map (fun _ => 0), outerCoord := extractIndices k (dimSizes m.outer) }) = m1 ∧
      BFrame X rest O nst scalar isB ind m1 ∧ m1.innerCoord = m1.inner.map (fun _ => 0) ∧
      m1.outerCoord = extractIndices k (dimSizes O) := by
    refine ⟨_, rfl, ?_⟩
    split
    · rename_i hsk
      rw [h.sc] at hsk
      have hO' := hsc.1 hsk.1
      refine ⟨⟨h.inner, h.outer, h.sc, h.nested, h.isb, h.inds⟩, rfl, ?_⟩
      have hk1 : k = 1 := by
        rcases hO with ⟨ha, _, _⟩ | ⟨_, rfl⟩
        · rw [hO'] at ha; have := ha.head; simp at this
        · omega
      simp [BinnedIndex.setToEndBin, h.sc, hsk.1, h.outer, hO', dimSizes, extractIndices, hk1]
    · exact ⟨⟨h.inner, h.outer, h.sc, h.nested, h.isb, h.inds⟩, rfl, by simp [h.outer]⟩
  simp only [BinnedIndex.setIndex]
  rw [hm1]
  generalize hm2 : ({ m1 with binIndex := flatVec m1.outer m1.outerCoord } : BinnedIndex N) = m2
  have fr2 : BFrame X rest O nst scalar isB ind m2 := by
    subst hm2; exact ⟨fr1.inner, fr1.outer, fr1.sc, fr1.nested, fr1.isb, fr1.inds⟩
  have hoc2 : m2.outerCoord = extractIndices k (dimSizes O) := by subst hm2; exact hoc1
  have hic2 : m2.innerCoord = m2.inner.map (fun _ => 0) := by subst hm2; exact hic1
  have hbi2 : m2.binIndex = dot O m2.outerCoord := by
    subst hm2; simp only [flatVec_eq, fr1.outer]
  have hend2 : m2.atEnd = true ↔ k = nb := by
    simp only [BinnedIndex.atEnd, decide_eq_true_eq, fr2.outer, hoc2]
    exact hO.atEnd h0 h1
  by_cases he : k = nb
  · obtain ⟨a1, a2, a3, a4⟩ := BFrame.loadList (List.finRange N) fr2
    have hae : m2.loadAll.atEnd = true := by
      exact (BFrame.atEnd_congr fr2 a1 a3).trans (hend2.2 he)
    rw [if_neg (by rw [hae]; simp)]
    refine ⟨_, k, rfl, ⟨a1, ?_, a3.trans hoc2, fun hh => by omega, fun hh => by omega⟩, by omega, h1,
      fun x _ _ => by omega, fun _ => by omega⟩
    show m2.loadAll.innerCoord = _
    rw [show m2.loadAll.innerCoord = m2.innerCoord from a2, hic2]
    exact map_zero_inner fr2 a1
  · have hf2 : m2.atEnd = false := by
      cases hx : m2.atEnd with
      | false => rfl
      | true => exact absurd (hend2.1 hx) he
    obtain ⟨a1, a2, a3, a4, a5, a6⟩ := fr2.loadAll hf2 (by rw [hic2]; simp) hbi2 (S := S k) (by
      intro i hi
      rw [hoc2]
      exact hS k h0 (by omega) i hi) hany
    have hae : m2.loadAll.atEnd = false := by rw [BFrame.atEnd_congr fr2 a1 a3, hf2]
    by_cases hz : S k = 0
    · rw [if_pos (by rw [a5, hae]; exact ⟨hz, rfl⟩)]
      obtain ⟨m', b', e1, e2, e3, e4, e5, e6⟩ := seekBin_spec hO hS hany fuel m2.loadAll k a1 h0 (by omega)
        (a3.trans hoc2) (by rw [a4, hbi2, a3]) (by omega)
      refine ⟨m', b', e1, e2, by omega, e4, fun x hx hx' => ?_, e6⟩
      by_cases hxb : x = k
      · rw [hxb]; exact hz
      · exact e5 x (by omega) hx'
    · rw [if_neg (by rw [a5]; exact fun hh => hz hh.1)]
      refine ⟨_, k, rfl, ⟨a1, ?_, a3.trans hoc2, fun _ => by rw [a4, hbi2, a3], fun _ => ⟨a5, by rw [a6, a3]⟩⟩,
        by omega, h1, fun x _ _ => by omega, fun _ => hz⟩
      rw [a2, hic2]
      exact map_zero_inner fr2 a1

/-! ### Running over a block of bins -/

/-- Inner dims in bin `b`. -/
def binDims (X rest : List (Int × Vec N)) (nst : Vec N) (s : Int) : List (Int × Vec N) := X ++ (s, nst) :: rest

/-- Operand offsets for the events of bin `b` from position `p` on. -/
def binCalls (X rest O : List (Int × Vec N)) (nst : Vec N) (isB : Fin N → Bool)
    (ind : Fin N → Option (Int → Int × Int)) (S : Int → Int) (b p : Int) : List (Vec N) :=
  (List.range (fvol (binDims X rest nst (S b)) - p).toNat).map (fun (j : Nat) =>
    binBase O nst isB ind (extractIndices b (dimSizes O)) + memAt (binDims X rest nst (S b)) (p + j))

/-- All events of the bins `b ≤ x < e`. -/
def rangeCalls (X rest O : List (Int × Vec N)) (nst : Vec N) (isB : Fin N → Bool)
    (ind : Fin N → Option (Int → Int × Int)) (S : Int → Int) (b e : Int) : List (Vec N) :=
  (List.range (e - b).toNat).flatMap (fun (j : Nat) => binCalls X rest O nst isB ind S (b + j) 0)

theorem binCalls_empty {b : Int} (h : S b = 0) : binCalls X rest O nst isB ind S b 0 = [] := by
  simp [binCalls, binDims, fvol_append, fvol, h]

theorem rangeCalls_self (b : Int) : rangeCalls X rest O nst isB ind S b b = [] := by simp [rangeCalls]

theorem rangeCalls_succ {b e : Int} (h : b < e) : rangeCalls X rest O nst isB ind S b e =
    binCalls X rest O nst isB ind S b 0 ++ rangeCalls X rest O nst isB ind S (b + 1) e := by
  have : (e - b).toNat = (e - (b + 1)).toNat + 1 := by omega
  simp only [rangeCalls, this, List.range_succ_eq_map, List.flatMap_cons, List.flatMap_map]
  congr 1
  · simp
  · congr 1
    funext j
    congr 1
    push_cast; omega

/-- Empty bins do not matter. -/
theorem rangeCalls_skip : ∀ (n : Nat) (b b' e : Int), (b' - b).toNat = n → b ≤ b' → b' ≤ e → (∀ x, b ≤ x → x < b' → S x = 0) →
    rangeCalls X rest O nst isB ind S b e = rangeCalls X rest O nst isB ind S b' e := by
  intro n
  induction n with
  | zero => intro b b' e hn h1 _ _; have : b = b' := by omega
            rw [this]
  | succ n ih =>
    intro b b' e hn h1 h2 h3
    rw [rangeCalls_succ (by omega), binCalls_empty (h3 b (by omega) (by omega)), List.nil_append]
    exact ih (b + 1) b' e (by omega) (by omega) h2 (fun x hx hx' => h3 x (by omega) hx')

theorem rangeCalls_empty : ∀ (n : Nat) (b e : Int), (e - b).toNat = n → (∀ x, b ≤ x → x < e → S x = 0) →
    rangeCalls X rest O nst isB ind S b e = [] := by
  intro n
  induction n with
  | zero => intro b e hn _; simp [rangeCalls, hn]
  | succ n ih =>
    intro b e hn h3
    rw [rangeCalls_succ (by omega), binCalls_empty (h3 b (by omega) (by omega)), List.nil_append]
    exact ih (b + 1) e (by omega) (fun x hx hx' => h3 x (by omega) hx')

theorem binCalls_length (b p : Int) : (binCalls X rest O nst isB ind S b p).length =
    (fvol (binDims X rest nst (S b)) - p).toNat := by simp [binCalls]

/-- Inside bin `b` at event position `p`. -/
structure InBin (X rest O : List (Int × Vec N)) (nst : Vec N) (scalar : Bool) (isB : Fin N → Bool)
    (ind : Fin N → Option (Int → Int × Int)) (S : Int → Int) (b p : Int) (m : BinnedIndex N) : Prop where
  frame : BFrame X rest O nst scalar isB ind m
  inner : m.inner = binDims X rest nst (S b)
  ic : m.innerCoord = extractIndices p (dimSizes (binDims X rest nst (S b)))
  oc : m.outerCoord = extractIndices b (dimSizes O)
  bi : m.binIndex = dot O m.outerCoord
  data : m.data = binBase O nst isB ind m.outerCoord + dot m.inner m.innerCoord

theorem extract_zero : ∀ (L : List (Int × Vec N)), AllPos L → L ≠ [] →
    extractIndices 0 (dimSizes L) = L.map (fun _ => 0)
  | [], _, h => absurd rfl h
  | [p], _, _ => by simp [dimSizes, extractIndices]
  | p :: q :: L, hp, _ => by
    have := extract_zero (q :: L) hp.tail (by simp)
    simp only [dimSizes, List.map_cons] at this ⊢
    rw [extract_cons2 (le_refl _) hp.head]
    simp [this]

theorem AtBin.inBin {m : BinnedIndex N} {b : Int} (h : AtBin X rest O nst scalar isB ind S nb b m) (h1 : b < nb)
    (hp : AllPos (binDims X rest nst (S b))) : InBin X rest O nst scalar isB ind S b 0 m := by
  obtain ⟨a, d⟩ := h.loaded h1
  have hin : m.inner = binDims X rest nst (S b) := by rw [h.frame.nestedSize, a]; rfl
  refine ⟨h.frame, hin, ?_, h.oc, h.bi h1, ?_⟩
  · rw [extract_zero _ hp (by simp [binDims]), h.ic, hin]
  · rw [d, dot_zero m.inner _ (by rw [h.ic]; simp)]
    simp

theorem binned_run_spec (hO : OuterOk O nb) (hS : SizesOk O isB ind S nb) (hany : ∃ i, isB i = true)
    (hX : AllPos X) (hrest : AllPos rest) (hS0 : ∀ b, 0 ≤ b → b < nb → 0 ≤ S b) {sf : Nat} (hsf : nb ≤ sf) {e : Int} {me : BinnedIndex N}
    (hme : AtBin X rest O nst scalar isB ind S nb e me) (hen : e ≤ nb) :
    ∀ (fuel : Nat) (b p : Int) (m : BinnedIndex N), InBin X rest O nst scalar isB ind S b p m →
    0 ≤ b → b < e → 0 < S b → (e < nb → S e ≠ 0) → 0 ≤ p → p < fvol (binDims X rest nst (S b)) →
    (binCalls X rest O nst isB ind S b p ++ rangeCalls X rest O nst isB ind S (b + 1) e).length < fuel →
    BinnedIndex.run sf fuel m me =
      some (binCalls X rest O nst isB ind S b p ++ rangeCalls X rest O nst isB ind S (b + 1) e) := by
  intro fuel
  induction fuel with
  | zero => intro b p m _ _ _ _ _ _ _ h; simp at h
  | succ fuel ih =>
    intro b p m hm h0 hbe hSb hee hp0 hpv hf
    have hpos : AllPos (binDims X rest nst (S b)) := by
      refine hX.append (fun q hq => ?_)
      rcases List.mem_cons.1 hq with rfl | hq
      · exact hSb
      · exact hrest q hq
    obtain ⟨q, L, hqL⟩ : ∃ q L, binDims X rest nst (S b) = q :: L := by
      cases hx : binDims X rest nst (S b) with
      | nil => simp [binDims] at hx
      | cons q L => exact ⟨q, L, rfl⟩
    have houter : m.outerCoord ≠ me.outerCoord := by
      rw [hm.oc, hme.oc]
      intro hh
      have := hO.inj h0 (by omega) hh
      omega
    have hpos' := hpos
    have hpv' := hpv
    rw [hqL] at hpos' hpv'
    have hq0 := hpos'.head
    obtain ⟨c, cs, hc⟩ := extract_cons_exists p (dimSizes (q :: L))
    -- coordinate in the innermost dim
    have hem := Int.emod_add_mul_ediv p q.1
    have hml := Int.emod_lt_of_pos p hq0
    have hm0 := Int.emod_nonneg p (show q.1 ≠ 0 by omega)
    have hcp : c = p % q.1 := by
      cases L with
      | nil =>
        simp only [dimSizes, List.map_cons, List.map_nil, extractIndices] at hc
        injection hc with hc _
        have hv : p < q.1 := by simpa [fvol] using hpv'
        rw [← hc, Int.emod_eq_of_lt hp0 hv]
      | cons q' L =>
        simp only [dimSizes, List.map_cons] at hc
        rw [extract_cons2 hp0 hq0] at hc
        injection hc with hc _
        exact hc.symm
    have hic : m.innerCoord = c :: cs := by rw [hm.ic, hqL, hc]
    have hin : m.inner = q :: L := by rw [hm.inner, hqL]
    have hn : BinnedIndex.innerSize m me = q.1 - c := by
      simp only [BinnedIndex.innerSize]
      rw [if_neg (fun hh => houter hh.2), hin, hic]
      simp [dimSizes]
    have hcn : c + (q.1 - c) = q.1 := by omega
    have hple : p + (q.1 - c) ≤ fvol (q :: L) := by
      have hd : p / q.1 + 1 ≤ fvol L := by
        have := div_lt_fvol (L := L) hq0 hpv'
        omega
      have h2 : q.1 * (p / q.1 + 1) ≤ q.1 * fvol L := Int.mul_le_mul_of_nonneg_left hd (by omega)
      rw [Int.mul_add] at h2
      simp only [fvol]
      omega
    simp only [BinnedIndex.run]
    rw [if_neg (fun hh => houter hh.2), hn, if_pos (by omega)]
    -- the step
    have hco := incInDims_coord L q p (q.1 - c) (m.data + (q.1 - c) • q.2) c cs hpos' hp0 (by omega)
      (fun _ => by omega) hc
    have hda := incInDims_data (q :: L) ((c + (q.1 - c)) :: cs) (m.data + (q.1 - c) • q.2)
    generalize hr : incInDims (q :: L) ((c + (q.1 - c)) :: cs) (m.data + (q.1 - c) • q.2) = r at hco hda
    have hdata : r.2 = binBase O nst isB ind m.outerCoord + dot (q :: L) r.1 := by
      have hd0 := hm.data
      rw [hin, hic] at hd0
      have e2 : m.data + (q.1 - c) • q.2 - dot (q :: L) ((c + (q.1 - c)) :: cs) =
          binBase O nst isB ind m.outerCoord := by
        rw [hd0]; simp only [dot, add_smul]; abel
      rw [e2] at hda
      rw [← hda]; abel
    have hstep : m.incrementBy sf (q.1 - c) =
        (if r.1.getLast? = ((q :: L).getLast?).map (fun p => max p.1 1)
          then BinnedIndex.seekBin sf { m with data := r.2, innerCoord := r.1 }
          else some { m with data := r.2, innerCoord := r.1 }) := by
      simp only [BinnedIndex.incrementBy, hin, hic]
      rw [if_pos (by omega)]
      rw [hr]
    -- calls of this row
    have hcalls : binCalls X rest O nst isB ind S b p =
        MultiIndex.innerLoop m.data ((m.inner.map Prod.snd).headD 0) (q.1 - c) ++
        binCalls X rest O nst isB ind S b (p + (q.1 - c)) := by
      simp only [binCalls, hqL]
      have hsplit : (fvol (q :: L) - p).toNat = (q.1 - c).toNat + (fvol (q :: L) - (p + (q.1 - c))).toNat := by omega
      rw [hsplit, List.range_add, List.map_append, List.map_map]
      congr 1
      · simp only [MultiIndex.innerLoop]
        apply List.map_congr_left
        intro j hj
        simp only [List.mem_range] at hj
        have hkd : dot (q :: L) (extractIndices p (dimSizes (q :: L))) = memAt (q :: L) p :=
          dot_extract _ _ hpos' hp0 hpv'
        have hj2 : p + (j : Int) = (p % q.1 + j) + q.1 * (p / q.1) := by omega
        have a1 : (p + (j : Int)) % q.1 = p % q.1 + j := by
          rw [hj2, Int.add_mul_emod_self_left]; exact Int.emod_eq_of_lt (by omega) (by omega)
        have a2 : (p + (j : Int)) / q.1 = p / q.1 := by
          rw [hj2, Int.add_mul_ediv_left _ _ (by omega), Int.ediv_eq_zero_of_lt (by omega) (by omega)]; simp
        rw [hm.data, hm.ic, hin, hm.oc, hqL, hkd]
        simp only [List.map_cons, List.headD_cons, memAt, a1, a2, add_smul]
        abel
      · apply List.map_congr_left
        intro j _
        simp only [Function.comp_def]
        congr 2
        push_cast
        omega
    have hlast := extract_getLast (q :: L) (p + (q.1 - c)) hpos' (by simp) (by omega) hple
    rw [hstep, hco]
    have hilen : (MultiIndex.innerLoop m.data ((m.inner.map Prod.snd).headD 0) (q.1 - c)).length = (q.1 - c).toNat := by
      simp [MultiIndex.innerLoop]
    rw [hcalls] at hf ⊢
    simp only [List.length_append, hilen] at hf
    by_cases hend : p + (q.1 - c) = fvol (q :: L)
    · -- the bin is done
      have hlast' : (extractIndices (p + (q.1 - c)) (dimSizes (q :: L))).getLast? = ((q :: L).getLast?).map (fun p => max p.1 1) := hlast.2 hend
      rw [if_pos hlast']
      have hbc : binCalls X rest O nst isB ind S b (p + (q.1 - c)) = [] := by
        simp [binCalls, hqL, hend]
      rw [hbc] at hf ⊢
      have fr : BFrame X rest O nst scalar isB ind { m with data := r.2, innerCoord := extractIndices (p + (q.1 - c)) (dimSizes (q :: L)) } :=
        ⟨hm.frame.inner, hm.frame.outer, hm.frame.sc, hm.frame.nested, hm.frame.isb, hm.frame.inds⟩
      obtain ⟨m', b', e1, e2, e3, e4, e5, e6⟩ := seekBin_spec hO hS hany sf _ b fr h0 (by omega) hm.oc hm.bi (by omega)
      rw [e1]
      simp only
      have hb'e : b' ≤ e := by
        by_contra hcon
        by_cases hlt : e < nb
        · exact hee hlt (e5 e hbe (by omega))
        · omega
      rw [rangeCalls_skip _ (b + 1) b' e rfl (by omega) hb'e (fun x hx hx' => e5 x (by omega) hx')] at hf ⊢
      by_cases hbe' : b' = e
      · subst hbe'
        have : BinnedIndex.run sf fuel m' me = some [] := by
          cases fuel with
          | zero => simp at hf; omega
          | succ fuel =>
            simp only [BinnedIndex.run]
            rw [if_pos ⟨by rw [e2.ic, hme.ic]; exact map_zero_inner e2.frame hme.frame, by rw [e2.oc, hme.oc]⟩]
        rw [this, rangeCalls_self]
        simp
      · have hS' : 0 < S b' := by
          have := hS0 b' (by omega) (by omega)
          have := e6 (by omega)
          omega
        have hpos2 : AllPos (binDims X rest nst (S b')) := by
          refine hX.append (fun q hq => ?_)
          rcases List.mem_cons.1 hq with rfl | hq
          · exact hS'
          · exact hrest q hq
        rw [rangeCalls_succ (by omega)] at hf ⊢
        have := ih b' 0 m' (e2.inBin (by omega) hpos2) (by omega) (by omega) hS' hee (le_refl _) (fvol_pos hpos2)
          (by simp at hf ⊢; omega)
        rw [this]
        simp
    · have hlast' : ¬ (extractIndices (p + (q.1 - c)) (dimSizes (q :: L))).getLast? = ((q :: L).getLast?).map (fun p => max p.1 1) := fun hh => hend (hlast.1 hh)
      rw [if_neg hlast']
      simp only
      have := ih b (p + (q.1 - c)) { m with data := r.2, innerCoord := extractIndices (p + (q.1 - c)) (dimSizes (q :: L)) }
        ⟨⟨hm.frame.inner, hm.frame.outer, hm.frame.sc, hm.frame.nested, hm.frame.isb, hm.frame.inds⟩, hm.inner,
          by rw [hqL], hm.oc, hm.bi, by simp only [hin]; rw [hdata, hco]⟩ h0 hbe hSb hee (by omega)
        (by rw [hqL]; omega) (by simp at hf ⊢; omega)
      rw [this]
      simp

/-- A block of bins visits the events of its bins. -/
theorem binned_runFrom (hO : OuterOk O nb) (hsc : scalar = true ↔ O = [(0, 0)]) (hS : SizesOk O isB ind S nb)
    (hany : ∃ i, isB i = true) (hX : AllPos X) (hrest : AllPos rest) (hS0 : ∀ b, 0 ≤ b → b < nb → 0 ≤ S b)
    {sf fuel : Nat} (hsf : nb ≤ sf) {m m' : BinnedIndex N} (h : BFrame X rest O nst scalar isB ind m)
    (h' : BFrame X rest O nst scalar isB ind m') {b e : Int}
    (h0 : 0 ≤ b) (hbe : b ≤ e) (hen : e ≤ nb)
    (hf : (rangeCalls X rest O nst isB ind S b e).length < fuel) :
    ∃ x y, m.setIndex sf b = some x ∧ m'.setIndex sf e = some y ∧
      BinnedIndex.run sf fuel x y = some (rangeCalls X rest O nst isB ind S b e) := by
  obtain ⟨m1, b1, a1, a2, a3, a4, a5, a6⟩ := setIndex_spec hO hsc hS hany h h0 (by omega) hsf
  obtain ⟨m2, e1, c1, c2, c3, c4, c5, c6⟩ := setIndex_spec hO hsc hS hany h' (by omega : 0 ≤ e) hen hsf
  refine ⟨m1, m2, a1, c1, ?_⟩
  have hb1e1 : b1 ≤ e1 := by
    by_contra hcon
    by_cases hlt : e1 < nb
    · exact c6 hlt (a5 e1 (by omega) (by omega))
    · omega
  have hext : rangeCalls X rest O nst isB ind S b e = rangeCalls X rest O nst isB ind S b1 e1 := by
    by_cases hle : b1 ≤ e
    · rw [rangeCalls_skip _ b b1 e rfl a3 hle a5]
      -- bins from `e` to `e1` are empty
      have : ∀ (n : Nat) (x : Int), (e - x).toNat = n → x ≤ e → rangeCalls X rest O nst isB ind S x e =
          rangeCalls X rest O nst isB ind S x e1 := by
        intro n
        induction n with
        | zero =>
          intro x hx hxe
          have : x = e := by omega
          subst this
          rw [rangeCalls_self, rangeCalls_empty _ x e1 rfl c5]
        | succ n ih =>
          intro x hx hxe
          rw [rangeCalls_succ (b := x) (e := e) (by omega), rangeCalls_succ (b := x) (e := e1) (by omega),
            ih (x + 1) (by omega) (by omega)]
      exact this _ b1 rfl hle
    · rw [rangeCalls_empty _ b e rfl (fun x hx hx' => a5 x hx (by omega)),
        rangeCalls_empty _ b1 e1 rfl (fun x hx hx' => c5 x (by omega) hx')]
  rw [hext] at hf ⊢
  by_cases heq : b1 = e1
  · subst heq
    rw [rangeCalls_self]
    cases fuel with
    | zero => simp at hf
    | succ fuel =>
      simp only [BinnedIndex.run]
      rw [if_pos ⟨by rw [a2.ic, c2.ic]; exact map_zero_inner a2.frame c2.frame, by rw [a2.oc, c2.oc]⟩]
  · have hS' : 0 < S b1 := by
      have := hS0 b1 (by omega) (by omega)
      have := a6 (by omega)
      omega
    have hpos2 : AllPos (binDims X rest nst (S b1)) := by
      refine hX.append (fun q hq => ?_)
      rcases List.mem_cons.1 hq with rfl | hq
      · exact hS'
      · exact hrest q hq
    rw [rangeCalls_succ (by omega)] at hf ⊢
    exact binned_run_spec hO hS hany hX hrest hS0 hsf c2 c4 fuel b1 0 m1 (a2.inBin (by omega) hpos2) (by omega)
      (by omega) hS' c6 (le_refl _) (fvol_pos hpos2) hf

/-! ### Construction -/

theorem seekBin_frame : ∀ (fuel : Nat) (m m' : BinnedIndex N), BFrame X rest O nst scalar isB ind m →
    m.seekBin fuel = some m' → BFrame X rest O nst scalar isB ind m' := by
  intro fuel
  induction fuel with
  | zero => intro m m' _ h; simp [BinnedIndex.seekBin] at h
  | succ fuel ih =>
    intro m m' hm h
    have hinc : BFrame X rest O nst scalar isB ind m.incrementBins := by
      simp only [BinnedIndex.incrementBins]
      have key : ∀ (x : BinnedIndex N), BFrame X rest O nst scalar isB ind x →
          BFrame X rest O nst scalar isB ind (if (!x.atEnd) = true then x.loadAll else x) := by
        intro x hx
        split
        · exact (BFrame.loadList _ hx).1
        · exact hx
      split
      · exact key _ ⟨hm.inner, hm.outer, hm.sc, hm.nested, hm.isb, hm.inds⟩
      · exact hm
    simp only [BinnedIndex.seekBin] at h
    split at h
    · exact ih _ _ hinc h
    · injection h with h; rw [← h]; exact hinc

end

theorem flattenDims_dense {dims : Dims} {strides : Fin N → List Int} {cap : Nat} {ds : List (Int × Vec N)}
    (hpos : ∀ p ∈ dims, 0 < p.2) (hd : dims ≠ []) (hz : NoZeroRun 1 (readDims dims strides).reverse)
    (hds : flattenDims 0 cap (readDims dims strides) = .ok ds) :
    ds ≠ [] ∧ SameMem ds (readDims dims strides).reverse := by
  obtain ⟨q, R, hR⟩ : ∃ q R, readDims dims strides = q :: R := by
    cases hx : readDims dims strides with
    | nil =>
      have := readDims_length dims strides
      rw [hx] at this
      exact absurd (List.length_eq_zero_iff.1 this.symm) hd
    | cons q R => exact ⟨q, R, rfl⟩
  have hall := readDims_allPos (strides := strides) hpos
  rw [hR] at hall hz hds ⊢
  obtain ⟨X, hX, _, hsame⟩ := flattenDims_spec (K := [q]) (R := R) (by simp) hall.tail (by simpa using hz) hds
  have hq1 : AllPos [q] := by intro p hp; simp at hp; subst hp; exact hall.head
  have hRr : AllPos R.reverse := fun p hp => hall.tail p (by simpa using hp)
  have hs := hsame.append hRr hq1
  simp only [List.reverse_cons, List.reverse_nil, List.nil_append] at hX
  rw [← hX] at hs
  refine ⟨by rw [hX]; simp, by simpa using hs⟩

theorem readDims_append : ∀ (A B : Dims) (st : Fin N → List Int),
    readDims (A ++ B) st = readDims A st ++ readDims B (fun i => (st i).drop A.length) := by
  intro A
  induction A with
  | nil => intro B st; simp [readDims]
  | cons p A ih =>
    intro B st
    simp only [List.cons_append, readDims, ih, List.length_cons]
    congr 2
    congr 1
    funext i
    rw [← List.drop_one, List.drop_drop, Nat.add_comm]

/-- A block of bins. -/
theorem binned_runBlock (hO : OuterOk O nb) (hsc : scalar = true ↔ O = [(0, 0)]) (hS : SizesOk O isB ind S nb)
    (hany : ∃ i, isB i = true) (hX : AllPos X) (hrest : AllPos rest) (hS0 : ∀ b, 0 ≤ b → b < nb → 0 ≤ S b)
    {sf fuel : Nat} (hsf : nb ≤ sf) {m : BinnedIndex N} (h : BFrame X rest O nst scalar isB ind m) {b e : Int}
    (h0 : 0 ≤ b) (hbe : b ≤ e) (hen : e ≤ nb)
    (hf : (rangeCalls X rest O nst isB ind S b e).length < fuel) :
    m.runBlock sf fuel b e = some (rangeCalls X rest O nst isB ind S b e) := by
  obtain ⟨x, y, hx, hy, hr⟩ := binned_runFrom hO hsc hS hany hX hrest hS0 hsf h h h0 hbe hen hf
  simp only [BinnedIndex.runBlock, hx, hy, hr]

/-- Extents do not matter for the strides read. -/
theorem readDims_resize (A B : Dims) (d : Dim) (n s : Int) (st : Fin N → List Int) :
    ∃ K R nst, readDims (A ++ (d, n) :: B) st = (K ++ [(n, nst)]) ++ R ∧
      readDims (A ++ (d, s) :: B) st = (K ++ [(s, nst)]) ++ R ∧ K.length = A.length ∧
      (∀ i, nst i = (st i).getD A.length 0) ∧ K = readDims A st ∧ R.length = B.length ∧
      R = readDims B (fun i => (st i).drop (A.length + 1)) := by
  refine ⟨readDims A st, readDims B (fun i => ((st i).drop A.length).tail),
    fun i => ((st i).drop A.length).headD 0, ?_, ?_, readDims_length _ _, ?_, rfl, readDims_length _ _, ?_⟩
  · rw [readDims_append]; simp [readDims]
  · rw [readDims_append]; simp [readDims]
  · intro i
    simp only [List.getD_eq_getElem?_getD, List.headD_eq_head?_getD, List.head?_drop]
  · congr 1
    funext i
    rw [List.tail_drop]

end Scipp
