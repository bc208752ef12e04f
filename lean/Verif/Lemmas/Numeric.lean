import Verif.Model.Numeric
import Mathlib.Algebra.Order.Field.Basic
import Mathlib.Tactic.Linarith
import Mathlib.Tactic.Ring
import Mathlib.Tactic.FieldSimp
import Mathlib.Tactic.Set
namespace Scipp.Numeric

theorem adjacentFind_false {α : Type} (pred : α → α → Bool) : ∀ l : List α,
    adjacentFind pred l = false ↔ ∀ (i : Nat) a b, l[i]? = some a → l[i + 1]? = some b → pred a b = false
  | [] => by simp [adjacentFind]
  | [a] => by simp [adjacentFind]
  | a :: b :: rest => by
    rw [adjacentFind, Bool.or_eq_false_iff, adjacentFind_false pred (b :: rest)]
    constructor
    · rintro ⟨h1, h2⟩ i x y hx hy
      cases i with
      | zero =>
        simp only [List.getElem?_cons_zero, List.getElem?_cons_succ, Option.some.injEq] at hx hy
        subst hx; subst hy; exact h1
      | succ i => exact h2 i x y (by simpa using hx) (by simpa using hy)
    · intro h
      exact ⟨h 0 a b rfl rfl, fun i x y hx hy => h (i + 1) x y (by simpa using hx) (by simpa using hy)⟩

end Scipp.Numeric
