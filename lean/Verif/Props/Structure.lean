import Verif.Model.Structure
import Verif.Spec.Structure
import Verif.Props.View
/-!
C60: access to the elements of structured variables.
-/
namespace Scipp.Props
open Scipp Scipp.Sizes

private theorem addrAux_scale (N : Int) : ∀ (s : Dims) (st : List Int) (c : Dim → Int),
    addrAux s (st.map (N * ·)) c = N * addrAux s st c
  | [], st, c => by cases st <;> simp [addrAux]
  | p :: s, [], c => by simp [addrAux]
  | (d, n) :: s, x :: st, c => by
    simp only [List.map_cons, addrAux]
    rw [addrAux_scale N s st c, Int.mul_add, Int.mul_left_comm]

private theorem scaled_addr (v : View) (N : Int) (c : Dim → Int) : (v.scaled N).addr c = N * v.addr c := by
  unfold View.scaled View.addr
  simp only
  rw [addrAux_scale, Int.mul_add, Int.mul_comm v.offset N]

/-- C60: a field of a structured variable has the dims of the variable; its element at some coordinates is the component of the structure at these
coordinates. Invalid offsets are refused. -/
theorem C60_field {α : Type} (v : View) (mem : Int → α) (N off : Int) :
    (0 ≤ off ∧ off < N → ∃ w, v.element N off = .ok w ∧ w.dims = v.dims ∧ w.readonly = v.readonly ∧
      ∀ c, (Var.mk w mem).elem c = component N v mem c off) ∧
    (¬ (0 ≤ off ∧ off < N) → v.element N off = .error .outOfRange) := by
  constructor
  · rintro ⟨h1, h2⟩
    refine ⟨{ v.scaled N with offset := (v.scaled N).offset + off }, ?_, rfl, rfl, fun c => ?_⟩
    · unfold View.element; rw [if_neg (by omega)]
    · unfold Var.elem component
      simp only
      congr 1
      have := scaled_addr v N c
      unfold View.addr at this ⊢
      simp only at this ⊢
      omega
  · intro h
    unfold View.element; rw [if_pos (by omega)]

/-- C60: the array of all elements has one more dim for the components. -/
theorem C60_elements {α : Type} (v : View) (hw : v.WF) (mem : Int → α) (N : Int) (hN : 0 ≤ N) (hd : Dim.structureComponent ∉ labels v.dims) :
    ∃ w, v.elements N = .ok w ∧ w.dims = v.dims ++ [(Dim.structureComponent, N)] ∧ w.readonly = v.readonly ∧
      ∀ c, (Var.mk w mem).elem c = component N v mem c (c Dim.structureComponent) := by
  have hadd : Dims.addInner v.dims Dim.structureComponent N = .ok (v.dims ++ [(Dim.structureComponent, N)]) := by
    unfold Dims.addInner
    rw [if_neg (by decide), if_neg (by omega)]
    unfold Sizes.insertRight
    rw [if_neg (by rw [Bool.not_eq_true, ← Bool.not_eq_true, contains_iff]; exact hd)]
  refine ⟨{ v.scaled N with dims := v.dims ++ [(Dim.structureComponent, N)], strides := (v.scaled N).strides ++ [1] }, ?_, rfl, rfl, fun c => ?_⟩
  · unfold View.elements; rw [hadd]; rfl
  · unfold Var.elem component
    simp only
    congr 1
    have := scaled_addr v N c
    unfold View.addr at this ⊢
    simp only at this ⊢
    rw [addrAux_append (by simp [View.scaled, hw.2.1])]
    have e : (v.scaled N).dims = v.dims := rfl
    rw [e] at this
    simp only [addrAux]
    omega

/-- C60: assigning to a field changes this component of the structures seen by the variable and nothing else: no other component, and no
structure outside the variable. -/
theorem C60_write {α : Type} (v w : View) (mem : Int → α) (N off : Int) (h : v.element N off = .ok w) (values : (Dim → Int) → α)
    (pick : Int → Option (Dim → Int)) (hp : Picks w pick) :
    (∀ c, InDims v.dims c → ∃ c', InDims v.dims c' ∧ v.addr c' = v.addr c ∧
      component N v ((Var.mk w mem).write values pick).buf c off = values c') ∧
    (∀ c i, 0 ≤ i → i < N → i ≠ off → component N v ((Var.mk w mem).write values pick).buf c i = component N v mem c i) ∧
    (∀ (u : View) (c : Dim → Int), (∀ c', InDims v.dims c' → v.addr c' ≠ u.addr c) → ∀ i, 0 ≤ i → i < N →
      component N u ((Var.mk w mem).write values pick).buf c i = component N u mem c i) := by
  have ho : 0 ≤ off ∧ off < N := by
    by_contra hc
    rw [((C60_field v mem N off).2 hc)] at h; cases h
  have haddr : ∀ c, w.addr c = N * v.addr c + off := by
    intro c
    unfold View.element at h
    rw [if_neg (by omega)] at h
    cases h
    have := scaled_addr v N c
    unfold View.addr at this ⊢
    simp only at this ⊢
    omega
  have hdims : w.dims = v.dims := by
    unfold View.element at h
    rw [if_neg (by omega)] at h
    cases h; rfl
  obtain ⟨p1, p2⟩ := hp
  have split : ∀ a b i j : Int, 0 ≤ i → i < N → 0 ≤ j → j < N → N * a + i = N * b + j → a = b ∧ i = j := by
    intro a b i j hi1 hi2 hj1 hj2 he
    have hNpos : 0 < N := by omega
    have e1 : (N * a + i) / N = a := by
      rw [Int.add_comm, Int.add_mul_ediv_left _ _ (by omega), Int.ediv_eq_zero_of_lt hi1 hi2]; omega
    have e2 : (N * b + j) / N = b := by
      rw [Int.add_comm, Int.add_mul_ediv_left _ _ (by omega), Int.ediv_eq_zero_of_lt hj1 hj2]; omega
    have hab : a = b := by rw [← e1, ← e2, he]
    exact ⟨hab, by rw [hab] at he; omega⟩
  refine ⟨fun c hc => ?_, fun c i hi1 hi2 hne => ?_, fun u c hu i hi1 hi2 => ?_⟩
  · unfold component Var.write
    simp only
    rw [← haddr]
    cases hpk : pick (w.addr c) with
    | none => exact absurd hpk (p2 c (hdims ▸ hc))
    | some c' =>
      obtain ⟨q1, q2⟩ := p1 _ _ hpk
      rw [haddr, haddr] at q2
      exact ⟨c', hdims ▸ q1, (split _ _ _ _ ho.1 ho.2 ho.1 ho.2 q2).1, rfl⟩
  · unfold component Var.write
    simp only
    cases hpk : pick (N * v.addr c + i) with
    | none => rfl
    | some c' =>
      obtain ⟨q1, q2⟩ := p1 _ _ hpk
      rw [haddr] at q2
      exact absurd (split _ _ _ _ ho.1 ho.2 hi1 hi2 q2).2.symm hne
  · unfold component Var.write
    simp only
    cases hpk : pick (N * u.addr c + i) with
    | none => rfl
    | some c' =>
      obtain ⟨q1, q2⟩ := p1 _ _ hpk
      rw [haddr] at q2
      exact absurd (split _ _ _ _ ho.1 ho.2 hi1 hi2 q2).1 (hu c' (hdims ▸ q1))

private theorem getD_scale (N : Int) (l : List Int) (i : Nat) : (l.map (N * ·)).getD i 0 = N * l.getD i 0 := by
  simp only [List.getD_eq_getElem?_getD, List.getElem?_map]
  cases l[i]? <;> simp

private theorem map_modify_scale (N st : Int) : ∀ (l : List Int) (i : Nat),
    (l.modify i (· * st)).map (N * ·) = (l.map (N * ·)).modify i (· * st)
  | [], i => by simp
  | x :: l, 0 => by simp [Int.mul_assoc]
  | x :: l, i + 1 => by simp [map_modify_scale N st l i]

/-- C60: taking a field commutes with slicing, including the errors for slices out of range: the field of a slice is the slice of the field. -/
theorem C60_slice_commutes (v : View) (p : Slice) (N off : Int) (ho : 0 ≤ off ∧ off < N) :
    (v.slice p >>= fun s => s.element N off) = (v.element N off >>= fun w => w.slice p) := by
  have he : ∀ u : View, u.element N off = .ok { u.scaled N with offset := (u.scaled N).offset + off } := by
    intro u; unfold View.element; rw [if_neg (by omega)]
  simp only [he]
  unfold View.slice
  simp only [bind, Except.bind, View.scaled]
  cases h1 : validSlice v.dims p with
  | error e => rfl
  | ok u =>
    simp only
    by_cases hn : p = Slice.none
    · rw [if_pos hn, if_pos hn]
    · rw [if_neg hn, if_neg hn]
      cases h2 : Sizes.index v.dims p.dim with
      | error e => rfl
      | ok i =>
        simp only
        have hoff : (v.offset + p.start * v.strides.getD i 0) * N + off =
            v.offset * N + off + p.start * (v.strides.map (N * ·)).getD i 0 := by
          rw [getD_scale, Int.add_mul, Int.mul_left_comm, Int.mul_comm N]
          omega
        by_cases hs : p.stop = -1
        · rw [if_pos hs, if_pos hs]
          cases h3 : Sizes.erase v.dims p.dim with
          | error e => rfl
          | ok d =>
            simp only [hoff, List.eraseIdx_map]
        · rw [if_neg hs, if_neg hs]
          cases h3 : Sizes.slice v.dims p with
          | error e => rfl
          | ok d =>
            simp only [hoff]
            congr 2
            exact map_modify_scale N p.stride v.strides i

/-- C60: the fields of a matrix with three rows and columns, stored column by column: row `i`, column `j` is the component `3 * j + i`. Other keys
are refused. -/
theorem C60_matrix_offsets (key : String) (k : Int) : matrixOffset key = .ok k ↔
    ∃ i j : Fin 3, key = (["x", "y", "z"][i.val]'i.isLt) ++ (["x", "y", "z"][j.val]'j.isLt) ∧ k = 3 * (j.val : Int) + (i.val : Int) := by
  constructor
  · intro h
    unfold matrixOffset at h
    split at h
    · rename_i k' hk
      injection h with h
      subst h
      simp only [List.lookup] at hk
      repeat' split at hk
      all_goals first
        | (simp only [Option.some.injEq] at hk
           rename_i hb
           have hb := eq_of_beq hb
           subst hb hk
           decide)
        | cases hk
    · cases h
  · rintro ⟨i, j, rfl, rfl⟩
    revert i j
    decide

/-- C60: fields of vectors. -/
theorem C60_vector_offsets (key : String) (k : Int) : vectorOffset key = .ok k ↔
    (key = "x" ∧ k = 0) ∨ (key = "y" ∧ k = 1) ∨ (key = "z" ∧ k = 2) := by
  constructor
  · intro h
    unfold vectorOffset at h
    split at h
    · rename_i k' hk
      injection h with h
      subst h
      simp only [List.lookup] at hk
      repeat' split at hk
      all_goals first
        | (simp only [Option.some.injEq] at hk
           rename_i hb
           have hb := eq_of_beq hb
           subst hb hk
           decide)
        | cases hk
    · cases h
  · rintro (⟨rfl, rfl⟩ | ⟨rfl, rfl⟩ | ⟨rfl, rfl⟩) <;> rfl

private theorem elements_wf {v w : View} {N : Int} (hw : v.WF) (hN : 0 ≤ N) (hd : Dim.structureComponent ∉ labels v.dims)
    (h : v.elements N = .ok w) : w.WF ∧ w.dims = v.dims ++ [(Dim.structureComponent, N)] := by
  unfold View.elements at h
  cases ha : Dims.addInner v.dims Dim.structureComponent N with
  | error e => simp [ha, bind, Except.bind] at h
  | ok d =>
    have hadd : Dims.addInner v.dims Dim.structureComponent N = .ok (v.dims ++ [(Dim.structureComponent, N)]) := by
      unfold Dims.addInner
      rw [if_neg (by decide), if_neg (by omega)]
      unfold Sizes.insertRight
      simp [contains_false.2 hd]
    rw [hadd] at ha
    injection ha with ha
    subst ha
    rw [hadd] at h
    simp only [bind, Except.bind] at h
    injection h with h
    subst h
    refine ⟨⟨⟨?_, ?_⟩, ?_, ?_⟩, rfl⟩
    · simp only [labels, List.map_append, List.map_cons, List.map_nil]
      rw [List.nodup_append]
      refine ⟨hw.1.1, by simp, ?_⟩
      intro a ha b hb hab
      simp only [List.mem_singleton] at hb
      subst hb; subst hab
      exact hd ha
    · intro p hp
      rcases List.mem_append.1 hp with hp | hp
      · exact hw.1.2 p hp
      · simp only [List.mem_singleton] at hp; subst hp; exact hN
    · simp [View.scaled, hw.2.1]
    · intro x hx
      simp only [View.scaled, List.mem_append, List.mem_map, List.mem_singleton] at hx
      rcases hx with ⟨y, hy, rfl⟩ | rfl
      · exact Int.mul_nonneg hN (hw.2.2 y hy)
      · omega

private theorem volume_append (a b : Dims) : Dims.volume (a ++ b) = Dims.volume a * Dims.volume b := by
  unfold Dims.volume
  rw [List.foldl_append]
  have : ∀ (l : Dims) (x : Int), l.foldl (fun acc p => acc * p.2) x = x * l.foldl (fun acc p => acc * p.2) 1 := by
    intro l
    induction l with
    | nil => intro x; simp
    | cons p l ih => intro x; simp only [List.foldl_cons]; rw [ih (x * p.2), ih (1 * p.2)]; simp [Int.mul_assoc]
  rw [this]

/-- C60: the array of a variable of matrices as shown in Python has two additional inner dims; its entry in row `i` and column `j` is the component that
the field with row `i` and column `j` has. -/
theorem C60_matrix_array {α : Type} (v : View) (hw : v.WF) (mem : Int → α) (hi : Dim.invalid ∉ labels v.dims)
    (h1 : Dim.structureComponent ∉ labels v.dims) (h2 : Dim.structureRow ∉ labels v.dims) (h3 : Dim.structureColumn ∉ labels v.dims) :
    ∃ w, v.matrixArray = .ok w ∧ labels w.dims = labels v.dims ++ [Dim.structureColumn, Dim.structureRow] ∧
      (∀ p, p ∈ w.dims ↔ p ∈ v.dims ∨ p = (Dim.structureColumn, 3) ∨ p = (Dim.structureRow, 3)) ∧
      ∀ c, (Var.mk w mem).elem c = component 9 v mem c (3 * c Dim.structureRow + c Dim.structureColumn) := by
  obtain ⟨e, e1, e2, -, e4⟩ := C60_elements v hw mem 9 (by omega) h1
  obtain ⟨ew, -⟩ := elements_wf hw (by omega) h1 e1
  have hfold : ∃ f, e.fold Dim.structureComponent [(Dim.structureRow, 3), (Dim.structureColumn, 3)] = .ok f := by
    refine (C06_fold_succeeds_iff e _ _ ew (by simp [WF, labels]; decide) ?_ (by decide)).2 ⟨v.dims, 9, [], e2, ?_, ?_⟩
    · rw [e2]
      simp only [labels, List.map_append, List.mem_append, not_or]
      exact ⟨hi, by decide⟩
    · simp only [labels, List.map_append, List.append_nil]
      rw [List.nodup_append]
      refine ⟨hw.1.1, by decide, ?_⟩
      intro a ha b hb hab
      simp only [List.map_cons, List.map_nil, List.mem_cons, List.not_mem_nil, or_false] at hb
      subst hab
      rcases hb with rfl | rfl
      · exact h2 ha
      · exact h3 ha
    · rw [List.append_nil, volume_append, volume_append]; rfl
  obtain ⟨f, hf⟩ := hfold
  obtain ⟨⟨pre, n, post, f1, f2⟩, f3⟩ := C06_fold_elements e f _ _ ew hf
  have hpre : pre = v.dims ∧ post = [] := by
    rw [e2] at f1
    have hnd : (labels (pre ++ (Dim.structureComponent, n) :: post)).Nodup := by rw [← f1, ← e2]; exact ew.1.1
    rcases List.append_eq_append_iff.1 f1 with ⟨a', q1, q2⟩ | ⟨c', q1, q2⟩
    · cases a' with
      | nil =>
        simp only [List.nil_append, List.cons.injEq] at q2
        rw [List.append_nil] at q1
        exact ⟨q1, q2.2.symm⟩
      | cons x a' =>
        simp only [List.cons_append, List.cons.injEq] at q2
        have := congrArg List.length q2.2
        simp at this
    · cases c' with
      | nil =>
        simp only [List.nil_append, List.cons.injEq] at q2
        rw [List.append_nil] at q1
        exact ⟨q1.symm, q2.2⟩
      | cons x c' =>
        simp only [List.cons_append, List.cons.injEq] at q2
        exfalso
        apply h1
        rw [q1, ← q2.1]
        simp [labels]
  obtain ⟨rfl, rfl⟩ := hpre
  rw [List.append_nil] at f2
  have hfw : f.WF := by
    obtain ⟨pre, n', post, spre, x, spost, g1, g2, g3, g4, g5, g6, g7, g8⟩ := View.fold_ok ew hf
    have hst : e.strides = spre ++ x :: spost := by rw [g1]
    have hrm : rowMajor (shape [(Dim.structureRow, 3), (Dim.structureColumn, 3)]) = [3, 1] := by decide
    rw [hrm] at g6
    rw [g6]
    refine ⟨g8, by simp [g4, g5], fun y hy => ?_⟩
    simp only [List.map_cons, List.map_nil, List.mem_append, List.mem_cons, List.not_mem_nil, or_false] at hy
    have hx : 0 ≤ x := ew.2.2 x (by rw [hst]; simp)
    rcases hy with (hy | rfl | rfl) | hy
    · exact ew.2.2 y (by rw [hst]; simp [hy])
    · omega
    · omega
    · exact ew.2.2 y (by rw [hst]; simp [hy])
  have hlen : labels f.dims = labels v.dims ++ [Dim.structureRow, Dim.structureColumn] := by rw [f2]; simp [labels]
  have horder : (labels f.dims).take ((labels f.dims).length - 2) ++ ((labels f.dims).drop ((labels f.dims).length - 2)).reverse =
      labels v.dims ++ [Dim.structureColumn, Dim.structureRow] := by
    rw [hlen]
    simp
  have htr : ∃ w, f.transpose (labels v.dims ++ [Dim.structureColumn, Dim.structureRow]) = .ok w := by
    refine (C03_transpose_succeeds_iff f _ hfw ?_ (by simp)).2 ?_
    · rw [hlen]
      simp only [List.mem_append, not_or]
      exact ⟨hi, by decide⟩
    · rw [hlen]
      exact List.Perm.append_left _ (List.Perm.swap _ _ _)
  obtain ⟨w, hw'⟩ := htr
  obtain ⟨t1, t2, t3, -⟩ := C03_transpose_elements f w _ hfw hw'
  refine ⟨w, ?_, t1 (by simp), fun p => ?_, fun c => ?_⟩
  · unfold View.matrixArray
    rw [e1]
    simp only [bind, Except.bind, hf, horder, hw']
  · obtain ⟨d, m⟩ := p
    rw [t2, f2]
    simp only [List.mem_append, List.mem_cons, List.not_mem_nil, or_false]
    constructor
    · rintro (h | h | h)
      · exact .inl h
      · exact .inr (.inr h)
      · exact .inr (.inl h)
    · rintro (h | h | h)
      · exact .inl h
      · exact .inr (.inr h)
      · exact .inr (.inl h)
  · have := e4 (upd c Dim.structureComponent (position [(Dim.structureRow, 3), (Dim.structureColumn, 3)] c))
    unfold Var.elem at this ⊢
    simp only at this ⊢
    rw [t3, f3, this]
    unfold component
    congr 1
    have hv : v.addr (upd c Dim.structureComponent (position [(Dim.structureRow, 3), (Dim.structureColumn, 3)] c)) = v.addr c := by
      unfold View.addr
      rw [addrAux_upd h1]
    rw [hv]
    simp only [upd, if_true, position, List.foldl_cons, List.foldl_nil]
    omega

/-- C60: `unzip(zip(a, b))` gives back `a` and `b`, as views of one variable of pairs. -/
theorem C60_unzip_zip (dims : Dims) (hw : WF dims) (first second : (Dim → Int) → Int)
    (h1 : ∀ c c', (∀ d ∈ labels dims, c d = c' d) → first c = first c') (h2 : ∀ c c', (∀ d ∈ labels dims, c d = c' d) → second c = second c') :
    ∃ a b, unzip (zip dims first second) = .ok (a, b) ∧ a.view.dims = dims ∧ b.view.dims = dims ∧
      ∀ c, InDims dims c → a.elem c = first c ∧ b.elem c = second c := by
  obtain ⟨a, a1, a2, -, a4⟩ := (C60_field (View.fresh dims) (zip dims first second).buf 2 0).1 (by omega)
  obtain ⟨b, b1, b2, -, b4⟩ := (C60_field (View.fresh dims) (zip dims first second).buf 2 1).1 (by omega)
  refine ⟨⟨a, (zip dims first second).buf⟩, ⟨b, (zip dims first second).buf⟩, ?_, a2, b2, fun c hc => ⟨?_, ?_⟩⟩
  · unfold unzip View.pairField
    have e1 : pairOffset "begin" = .ok 0 := rfl
    have e2 : pairOffset "end" = .ok 1 := rfl
    have e3 : (zip dims first second).view = View.fresh dims := rfl
    simp only [e1, e2, e3, bind, Except.bind, a1, b1]
  · rw [a4]
    unfold component zip
    simp only
    rw [fresh_addr, if_pos (by omega)]
    refine h1 _ _ (fun d hd => ?_)
    rw [show (2 * position dims c + 0) / 2 = position dims c by omega]
    exact coordsOf_position hw.1 hc d hd
  · rw [b4]
    unfold component zip
    simp only
    rw [fresh_addr, if_neg (by omega)]
    refine h2 _ _ (fun d hd => ?_)
    rw [show (2 * position dims c + 1) / 2 = position dims c by omega]
    exact coordsOf_position hw.1 hc d hd

/-! ### Concrete cases -/

/-- Vectors along a transposed slice of a 2-D variable; memory holds its addresses. -/
example := C60_field ⟨[(2, 2), (3, 3)], [1, 4], 1, false⟩ (fun a => a) 3 2

example : (View.vectorField ⟨[(2, 2), (3, 3)], [1, 4], 1, false⟩ "z").map (fun w => w.addr (fun _ => 1)) = .ok (3 * 6 + 2) := by decide

example := C60_elements ⟨[(2, 2), (3, 3)], [1, 4], 1, false⟩ (by simp [View.WF, Sizes.WF]) (fun a => a) 3 (by decide) (by decide)

example := C60_slice_commutes ⟨[(2, 2), (3, 7)], [1, 4], 1, false⟩ ⟨3, 1, 6, 2⟩ 3 1 (by decide)

example : (View.slice ⟨[(2, 2), (3, 7)], [1, 4], 1, false⟩ ⟨3, 1, 6, 2⟩ >>= fun s => s.element 3 1) = .ok ⟨[(2, 2), (3, 3)], [3, 24], 16, false⟩ := by
  decide

example := (C60_matrix_offsets "yz" 7).2 ⟨1, 2, by decide, by decide⟩

example := (C60_vector_offsets "y" 1).2 (by decide)

example := C60_matrix_array ⟨[(2, 2)], [1], 1, false⟩ (by simp [View.WF, Sizes.WF]) (fun a => a) (by decide) (by decide) (by decide) (by decide)

example : View.matrixArray ⟨[(2, 2)], [1], 1, false⟩ = .ok ⟨[(2, 2), (Dim.structureColumn, 3), (Dim.structureRow, 3)], [9, 1, 3], 9, false⟩ := by
  decide

example := C60_unzip_zip [(2, 2), (3, 3)] (by simp [WF, labels]) (fun c => c 2) (fun c => 10 * c 3) (fun c c' h => h 2 (by decide))
  (fun c c' h => by simp [h 3 (by decide)])

/-- Setting the field `y` of two vectors. -/
example := C60_write (α := Int) ⟨[(2, 2)], [1], 0, false⟩ ⟨[(2, 2)], [3], 1, false⟩ (fun a => a) 3 1 (by decide) (fun c => 100 + c 2)
  (fun a => if a = 1 then some (fun _ => 0) else if a = 4 then some (fun _ => 1) else none)
  (by
    constructor
    · intro a c h
      simp only at h
      by_cases h1 : a = 1
      · rw [if_pos h1] at h; cases h; exact ⟨by simp [InDims], by simp [View.addr, addrAux, h1]⟩
      · rw [if_neg h1] at h
        by_cases h4 : a = 4
        · rw [if_pos h4] at h; cases h; exact ⟨by simp [InDims], by simp [View.addr, addrAux, h4]⟩
        · rw [if_neg h4] at h; cases h
    · intro c hc
      have := hc 2 2 (by simp)
      simp only [View.addr, addrAux]
      rcases (by omega : c 2 = 0 ∨ c 2 = 1) with h | h <;> simp [h])

end Scipp.Props
