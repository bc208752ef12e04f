import Verif.Model.MatrixLayout
import Mathlib.Data.List.Basic
import Mathlib.Tactic.Ring
/-!
C139: matrices from arrays.
-/
namespace Scipp.Props
open Scipp Scipp.MatrixLayout

/-- An `n × n` matrix. -/
def c139Square (n : Nat) (m : List (List ℚ)) : Prop := m.length = n ∧ ∀ r ∈ m, r.length = n

theorem c139_flatten {α : Type} (n : Nat) : ∀ (L : List (List α)), (∀ r ∈ L, r.length = n) → ∀ (i j : Nat), j < n → L.flatten[i * n + j]? = L[i]?.bind (fun r => r[j]?) := by
  intro L
  induction L with
  | nil => intro _ i j _; simp
  | cons r L ih =>
    intro hL i j hj
    have hr : r.length = n := hL r List.mem_cons_self
    rw [List.flatten_cons]
    cases i with
    | zero =>
      rw [List.getElem?_append_left (by omega)]
      simp
    | succ i =>
      have e : (i + 1) * n + j = n + (i * n + j) := by ring
      rw [e, List.getElem?_append_right (by omega), hr, Nat.add_sub_cancel_left, ih (fun x hx => hL x (List.mem_cons_of_mem _ hx)) i j hj]
      simp

theorem c139_flatten_length {α : Type} (n : Nat) (L : List (List α)) (h : ∀ r ∈ L, r.length = n) : L.flatten.length = L.length * n := by
  induction L with
  | nil => simp
  | cons r L ih =>
    rw [List.flatten_cons, List.length_append, ih (fun x hx => h x (List.mem_cons_of_mem _ hx)), h r List.mem_cons_self, List.length_cons]
    ring

theorem c139_toEigen_rows (n : Nat) (m : List (List ℚ)) (h : c139Square n m) : ∀ r ∈ toEigen n m, r.length = n := by
  intro r hr
  obtain ⟨j, _, rfl⟩ := List.mem_map.1 hr
  simp [h.1]

/-- **C139** Every element of every matrix is where NumPy has it: row `i`, column `j` of matrix `e`. -/
theorem C139_entries (n : Nat) (ms : List (List (List ℚ))) (hm : ∀ m ∈ ms, c139Square n m) (e i j : Nat) (he : e < ms.length) (hi : i < n) (hj : j < n) :
    ∃ m r x, ms[e]? = some m ∧ m[i]? = some r ∧ r[j]? = some x ∧ entry n (create n ms) e i j = some x := by
  have hsq := hm ms[e] (List.getElem_mem he)
  have hi' : i < ms[e].length := by rw [hsq.1]; exact hi
  have hj' : j < (ms[e][i]).length := by rw [hsq.2 _ (List.getElem_mem hi')]; exact hj
  refine ⟨ms[e], ms[e][i], ms[e][i][j], List.getElem?_eq_getElem he, List.getElem?_eq_getElem hi', List.getElem?_eq_getElem hj', ?_⟩
  have hlt : j * n + i < n * n := by
    have : j * n + n ≤ n * n := by
      have := Nat.mul_le_mul_right n (Nat.succ_le_of_lt hj)
      rw [Nat.succ_mul] at this
      exact this
    omega
  unfold entry create
  rw [c139_flatten (n * n) _ (fun r hr => by
    obtain ⟨m, hmm, rfl⟩ := List.mem_map.1 hr
    rw [c139_flatten_length n _ (c139_toEigen_rows n m (hm m hmm))]
    simp [toEigen]) e _ hlt]
  rw [List.getElem?_map, List.getElem?_eq_getElem he]
  simp only [Option.map_some, Option.bind_some]
  rw [c139_flatten n _ (c139_toEigen_rows n _ hsq) j i hi]
  simp [toEigen, List.getElem?_range hj, List.getElem?_eq_getElem hi', List.getElem?_eq_getElem hj']

theorem c139_offset (i j : Nat) (hi : i < 3) (hj : j < 3) : offset i j = j * 3 + i := by
  match i, j, hi, hj with
  | 0, 0, _, _ => rfl
  | 0, 1, _, _ => rfl
  | 0, 2, _, _ => rfl
  | 1, 0, _, _ => rfl
  | 1, 1, _, _ => rfl
  | 1, 2, _, _ => rfl
  | 2, 0, _, _ => rfl
  | 2, 1, _, _ => rfl
  | 2, 2, _, _ => rfl

/-- **C139** A field, such as `xy`, is the element in that row and column. -/
theorem C139_fields (ms : List (List (List ℚ))) (hm : ∀ m ∈ ms, c139Square 3 m) (e i j : Nat) (he : e < ms.length) (hi : i < 3) (hj : j < 3) :
    ∃ m r x, ms[e]? = some m ∧ m[i]? = some r ∧ r[j]? = some x ∧ field (create 3 ms) e i j = some x := by
  obtain ⟨m, r, x, h1, h2, h3, h4⟩ := C139_entries 3 ms hm e i j he hi hj
  refine ⟨m, r, x, h1, h2, h3, ?_⟩
  unfold field
  rw [c139_offset i j hi hj]
  exact h4

/-- **C139** Scalings have the coefficients of their vector on the diagonal and zeros elsewhere. -/
theorem C139_scalings (vs : List (List ℚ)) (hv : ∀ v ∈ vs, v.length = 3) (e i j : Nat) (he : e < vs.length) (hi : i < 3) (hj : j < 3) :
    entry 3 (scalings vs) e i j = if i = j then vs[e]?.bind (fun v => v[i]?) else some 0 := by
  have hid : ∀ m ∈ List.replicate vs.length ([[1, 0, 0], [0, 1, 0], [0, 0, 1]] : List (List ℚ)), c139Square 3 m := by
    intro m hm
    rw [List.eq_of_mem_replicate hm]
    refine ⟨rfl, fun r hr => ?_⟩
    simp at hr
    rcases hr with rfl | rfl | rfl <;> rfl
  have hl := hv vs[e] (List.getElem_mem he)
  obtain ⟨m, r, x, h1, h2, h3, h4⟩ := C139_entries 3 _ hid e i j (by rw [List.length_replicate]; exact he) hi hj
  rw [List.getElem?_replicate, if_pos he] at h1
  have hme := (Option.some.inj h1).symm
  subst hme
  unfold entry at h4 ⊢
  unfold scalings setField
  have hk : (e * (3 * 3) + (j * 3 + i)) % 9 = j * 3 + i := by omega
  have hd : (e * (3 * 3) + (j * 3 + i)) / 9 = e := by omega
  simp only [List.getElem?_mapIdx, h4, Option.map_some, hk, hd, List.getD_eq_getElem?_getD, List.getElem?_map, List.getElem?_eq_getElem he, Option.bind_some, Option.getD_some]
  match i, j, hi, hj with
  | 0, 0, _, _ => simp [offset, hl]
  | 1, 1, _, _ => simp [offset, hl]
  | 2, 2, _, _ => simp [offset, hl]
  | 0, 1, _, _ => simp at h2; subst h2; simp at h3; simp [offset, ← h3]
  | 0, 2, _, _ => simp at h2; subst h2; simp at h3; simp [offset, ← h3]
  | 1, 0, _, _ => simp at h2; subst h2; simp at h3; simp [offset, ← h3]
  | 1, 2, _, _ => simp at h2; subst h2; simp at h3; simp [offset, ← h3]
  | 2, 0, _, _ => simp at h2; subst h2; simp at h3; simp [offset, ← h3]
  | 2, 1, _, _ => simp at h2; subst h2; simp at h3; simp [offset, ← h3]

/-- **C139** There are as many matrices as vectors. -/
theorem C139_scalings_count (vs : List (List ℚ)) : (scalings vs).length = vs.length * 9 := by
  unfold scalings setField create
  simp only [List.length_mapIdx]
  rw [c139_flatten_length 9 _ (fun r hr => by
    obtain ⟨m, hm, rfl⟩ := List.mem_map.1 hr
    rw [List.eq_of_mem_replicate hm]
    rfl)]
  simp

/-! Cases: two matrices that are not symmetric; two vectors. -/

def c139Ms : List (List (List ℚ)) := [[[1, 2, 3], [4, 5, 6], [7, 8, 9]], [[0, 1, 0], [0, 0, 2], [3, 0, 0]]]

theorem c139_ms_square : ∀ m ∈ c139Ms, c139Square 3 m := by
  intro m hm
  simp [c139Ms] at hm
  rcases hm with rfl | rfl <;> refine ⟨rfl, fun r hr => ?_⟩ <;> simp at hr <;> rcases hr with rfl | rfl | rfl <;> rfl

example : create 3 c139Ms = [1, 4, 7, 2, 5, 8, 3, 6, 9, 0, 0, 3, 1, 0, 0, 0, 2, 0] := by decide +kernel

example := C139_entries 3 c139Ms c139_ms_square 1 0 1 (by decide) (by decide) (by decide)

example := C139_fields c139Ms c139_ms_square 0 1 2 (by decide) (by decide) (by decide)

example : scalings [[2, 3, 4], [5, 6, 7]] = [2, 0, 0, 0, 3, 0, 0, 0, 4, 5, 0, 0, 0, 6, 0, 0, 0, 7] := by decide +kernel

example := C139_scalings [[2, 3, 4], [5, 6, 7]] (by decide) 1 2 2 (by decide) (by decide) (by decide)

example := C139_scalings_count [[2, 3, 4], [5, 6, 7]]

end Scipp.Props
