import Verif.Model.PandasTable
import Mathlib.Data.List.Nodup
import Mathlib.Data.List.TakeWhile
import Mathlib.Data.List.Perm.Basic
/-
Lemmas about tables.
-/
namespace Scipp.PandasTable
open Scipp

variable {U V : Type}

/-- One step of the dict. -/
def insertCol (d : List (Column U V)) (c : Column U V) : List (Column U V) :=
  if (d.map (·.name)).contains c.name then d.map (fun x => if x.name = c.name then c else x) else d ++ [c]

theorem dictOf_eq (cols : List (Column U V)) : dictOf cols = cols.foldl insertCol [] := rfl

theorem fold_distinct (cols acc : List (Column U V)) (h : ((acc ++ cols).map (·.name)).Nodup) : cols.foldl insertCol acc = acc ++ cols := by
  induction cols generalizing acc with
  | nil => simp
  | cons c cols ih =>
    have hc : c.name ∉ acc.map (·.name) := by
      rw [List.map_append, List.map_cons, List.nodup_append] at h
      exact fun hc => h.2.2 _ hc _ (by simp) rfl
    rw [List.foldl_cons, insertCol, if_neg (by rw [List.contains_iff_mem]; exact hc), ih _ (by simpa using h)]
    simp

theorem dictOf_distinct (cols : List (Column U V)) (h : (cols.map (·.name)).Nodup) : dictOf cols = cols := by
  rw [dictOf_eq, fold_distinct cols [] (by simpa using h)]
  rfl

theorem insertCol_nodup (d : List (Column U V)) (c : Column U V) (h : (d.map (·.name)).Nodup) : ((insertCol d c).map (·.name)).Nodup := by
  unfold insertCol
  split
  · have : (d.map (fun x => if x.name = c.name then c else x)).map (·.name) = d.map (·.name) := by
      rw [List.map_map]
      refine List.map_congr_left fun x _ => ?_
      simp only [Function.comp_apply]
      split
      · rename_i hx; exact hx.symm
      · rfl
    rw [this]
    exact h
  · rename_i hc
    rw [List.contains_iff_mem] at hc
    rw [List.map_append, List.nodup_append]
    refine ⟨h, by simp, ?_⟩
    intro a ha b hb hab
    rw [List.map_cons, List.map_nil, List.mem_singleton] at hb
    rw [hab, hb] at ha
    exact hc ha

theorem dictOf_nodup (cols : List (Column U V)) : ((dictOf cols).map (·.name)).Nodup := by
  rw [dictOf_eq]
  have : ∀ acc : List (Column U V), (acc.map (·.name)).Nodup → ((cols.foldl insertCol acc).map (·.name)).Nodup := by
    induction cols with
    | nil => exact fun acc h => h
    | cons c cols ih => exact fun acc h => ih _ (insertCol_nodup acc c h)
  exact this [] (by simp)

theorem pop_perm (cs : List (Column U V)) (hn : (cs.map (·.name)).Nodup) (n : List Char) (c : Column U V) (h : cs.find? (fun c => c.name == n) = some c) :
    (c :: cs.filter (fun x => x.name != n)).Perm cs ∧ c.name = n := by
  have hc : c.name = n := by simpa using List.find?_some h
  refine ⟨?_, hc⟩
  have hnd : cs.Nodup := List.Nodup.of_map _ hn
  have hmem := List.mem_of_find?_eq_some h
  refine (List.perm_ext_iff_of_nodup ?_ hnd).2 fun x => ?_
  · rw [List.nodup_cons]
    refine ⟨?_, hnd.filter _⟩
    intro hx
    have := (List.mem_filter.1 hx).2
    simp [hc] at this
  · rw [List.mem_cons, List.mem_filter]
    constructor
    · rintro (rfl | ⟨hx, _⟩)
      · exact hmem
      · exact hx
    · intro hx
      by_cases hxn : x.name = n
      · exact Or.inl (List.inj_on_of_nodup_map hn hx hmem (hxn.trans hc.symm))
      · exact Or.inr ⟨hx, by simpa using hxn⟩

theorem popAll_ok (names : List (List Char)) (cs d rest : List (Column U V)) (hn : (cs.map (·.name)).Nodup) (h : popAll names cs = .ok (d, rest)) :
    (d ++ rest).Perm cs ∧ d.map (·.name) = names := by
  induction names generalizing cs d rest with
  | nil =>
    simp only [popAll] at h
    cases h
    exact ⟨List.Perm.refl _, rfl⟩
  | cons n ns ih =>
    simp only [popAll] at h
    cases hf : cs.find? (fun c => c.name == n) with
    | none => rw [hf] at h; cases h
    | some c =>
      rw [hf] at h
      simp only at h
      cases hp : popAll ns (cs.filter (fun x => x.name != n)) with
      | error e => rw [hp] at h; cases h
      | ok r =>
        obtain ⟨d', rest'⟩ := r
        rw [hp] at h
        cases h
        obtain ⟨h1, h2⟩ := ih _ _ _ (hn.sublist (List.Sublist.map _ List.filter_sublist)) hp
        obtain ⟨h3, h4⟩ := pop_perm cs hn n c hf
        exact ⟨(List.Perm.cons c h1).trans h3, by rw [List.map_cons, h4, h2]⟩

theorem popAll_succeeds (names : List (List Char)) (cs : List (Column U V)) (hd : names.Nodup) (hs : ∀ n ∈ names, n ∈ cs.map (·.name)) : ∃ d rest, popAll names cs = .ok (d, rest) := by
  induction names generalizing cs with
  | nil => exact ⟨[], cs, rfl⟩
  | cons n ns ih =>
    rw [List.nodup_cons] at hd
    obtain ⟨c, hc, hcn⟩ := List.mem_map.1 (hs n (by simp))
    cases hf : cs.find? (fun c => c.name == n) with
    | none =>
      rw [List.find?_eq_none] at hf
      exact absurd (by simpa using hcn) (hf c hc)
    | some c' =>
      obtain ⟨d, rest, h⟩ := ih (cs.filter (fun x => x.name != n)) hd.2 (fun m hm => by
        obtain ⟨x, hx, hxm⟩ := List.mem_map.1 (hs m (by simp [hm]))
        refine List.mem_map.2 ⟨x, List.mem_filter.2 ⟨hx, ?_⟩, hxm⟩
        have : x.name ≠ n := fun h => hd.1 (by rw [← h, hxm]; exact hm)
        simpa using this)
      exact ⟨c' :: d, rest, by simp only [popAll, hf, h]⟩

theorem takeDrop (name u : List Char) (hn : '[' ∉ name) : (name ++ '[' :: u).dropWhile (fun c => c != '[') = '[' :: u ∧ (name ++ '[' :: u).takeWhile (fun c => c != '[') = name := by
  induction name with
  | nil => simp
  | cons a name ih =>
    rw [List.mem_cons, not_or] at hn
    obtain ⟨h1, h2⟩ := ih hn.2
    have : (a != '[') = true := by simpa using Ne.symm hn.1
    rw [List.cons_append, List.dropWhile_cons_of_pos (by simpa using this), List.takeWhile_cons_of_pos (by simpa using this), h1, h2]
    exact ⟨rfl, rfl⟩

theorem dropWhile_nil (s : List Char) (h : '[' ∉ s) : s.dropWhile (fun c => c != '[') = [] := by
  induction s with
  | nil => rfl
  | cons a s ih =>
    rw [List.mem_cons, not_or] at h
    rw [List.dropWhile_cons_of_pos (by simpa using Ne.symm h.1), ih h.2]

theorem beforeBracket_some {s u : List Char} (h : beforeBracket s = some u) : s = u ++ [']'] ∨ s = u ++ [']', '\n'] := by
  unfold beforeBracket at h
  split at h
  · rename_i r hr
    obtain rfl := Option.some.inj h
    left
    have := congrArg List.reverse hr
    simpa using this
  · rename_i r hr
    obtain rfl := Option.some.inj h
    right
    have := congrArg List.reverse hr
    simpa using this
  · cases h

theorem beforeBracket_append (u : List Char) : beforeBracket (u ++ [']']) = some u := by
  simp [beforeBracket]

theorem matchHeader_some {head name u : List Char} (h : matchHeader head = some (name, some u)) :
    '[' ∉ name ∧ '[' ∉ u ∧ (head = name ++ '[' :: (u ++ [']']) ∨ head = name ++ '[' :: (u ++ [']', '\n'])) := by
  unfold matchHeader at h
  split at h
  · cases h
  rename_i c rest hd
  split at h
  · cases h
  rename_i hc
  rw [List.contains_iff_mem] at hc
  split at h
  · cases h
  rename_i u' hu
  obtain ⟨rfl, h2⟩ := Prod.mk.inj (Option.some.inj h)
  obtain rfl := Option.some.inj h2
  have hhead : head = head.takeWhile (fun c => c != '[') ++ c :: rest := by
    conv_lhs => rw [← List.takeWhile_append_dropWhile (p := fun c => c != '[') (l := head), hd]
  have hcc : c = '[' := by
    have := List.head?_dropWhile_not (fun c => c != '[') head
    rw [hd] at this
    simpa using this
  subst hcc
  have hname : '[' ∉ head.takeWhile (fun c => c != '[') := by
    intro hm
    have := List.mem_takeWhile_imp hm
    simp at this
  refine ⟨hname, ?_, ?_⟩
  · rcases beforeBracket_some hu with h | h <;> (rw [h] at hc; exact fun hm => hc (List.mem_append_left _ hm))
  · rcases beforeBracket_some hu with h | h
    · left; rw [h] at hhead; exact hhead
    · right; rw [h] at hhead; exact hhead

theorem matchHeader_append (name u : List Char) (hn : '[' ∉ name) (hu : '[' ∉ u) : matchHeader (name ++ '[' :: (u ++ [']'])) = some (name, some u) := by
  obtain ⟨h1, h2⟩ := takeDrop name (u ++ [']']) hn
  unfold matchHeader
  rw [h1, h2]
  simp only
  rw [if_neg, beforeBracket_append]
  rw [List.contains_iff_mem, List.mem_append, List.mem_singleton]
  rintro (h | h)
  · exact hu h
  · exact absurd h (by decide)

theorem matchHeader_none {head name : List Char} (h : matchHeader head = some (name, none)) : head = name ∧ '[' ∉ head := by
  unfold matchHeader at h
  split at h
  · rename_i hd
    obtain ⟨rfl, _⟩ := Prod.mk.inj (Option.some.inj h)
    refine ⟨rfl, fun hm => ?_⟩
    have := List.takeWhile_append_dropWhile (p := fun c => c != '[') (l := head)
    rw [hd, List.append_nil] at this
    rw [← this] at hm
    have := List.mem_takeWhile_imp hm
    simp at this
  · split at h
    · cases h
    · split at h <;> cases h

theorem rstrip_space (name : List Char) (h : ∀ c, name.getLast? = some c → c.isWhitespace = false) : rstrip (name ++ [' ']) = name := by
  unfold rstrip
  rw [List.reverse_append]
  have h1 : [' '].reverse ++ name.reverse = ' ' :: name.reverse := rfl
  rw [h1, List.dropWhile_cons_of_pos (by decide)]
  have : name.reverse.dropWhile Char.isWhitespace = name.reverse := by
    cases hr : name.reverse with
    | nil => rfl
    | cons a r =>
      have ha : name.getLast? = some a := by rw [← List.head?_reverse, hr]; rfl
      rw [List.dropWhile_cons_of_neg (by rw [h a ha]; simp)]
  rw [this, List.reverse_reverse]

end Scipp.PandasTable
