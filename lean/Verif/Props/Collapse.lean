import Verif.Lemmas.Collapse

namespace Scipp.Props
open Scipp Scipp.Collapse

/-- C119: `collapse` gives every slice along the other dims, each exactly once, under the text of its indices. This holds for all names, also
when they contain the characters used to separate the parts of the text. -/
theorem C119_collapse (name : Dim → List Char) (v : View) (hv : v.WF) (keep : Dim) : ∃ out, collapse name v keep = .ok out ∧
    AllSlices name v (v.dims.filter (fun d => d.1 ≠ keep)) out := by
  have e : v.dims.filter (fun d => d.1 != keep) = v.dims.filter (fun d => d.1 ≠ keep) :=
    List.filter_congr (by intro d _; by_cases h : d.1 = keep <;> simp [h])
  unfold collapse
  rw [e]
  refine toSlices_spec name v hv _ (fun d hd => (List.mem_filter.1 hd).1) ?_
  exact hv.1.1.sublist (List.filter_sublist.map _)

/-- C119: what is left in each slice is the dim to keep. -/
theorem C119_keeps (name : Dim → List Char) (v : View) (hv : v.WF) (keep : Dim) (out : List (List Char × View))
    (h : collapse name v keep = .ok out) (k : List Char) (w : View) (hw : (k, w) ∈ out) : w.dims = v.dims.filter (fun d => d.1 = keep) := by
  obtain ⟨out', h', _, _, h3, _⟩ := C119_collapse name v hv keep
  obtain rfl : out' = out := Except.ok.inj (h'.symm.trans h)
  obtain ⟨idx, hi, _, hs, _⟩ := h3 k w hw
  rw [hs, hi.labels]
  apply List.filter_congr
  intro d hd
  rw [decide_eq_decide]
  constructor
  · intro hn
    by_contra hk
    exact hn (List.mem_map.2 ⟨d, List.mem_filter.2 ⟨hd, by simpa using hk⟩, rfl⟩)
  · rintro rfl hm
    obtain ⟨e, he, h1⟩ := List.mem_map.1 hm
    have := (List.mem_filter.1 he).2
    simp [h1] at this

/-- A 2×3×2 object with labels called "x", "y-" and "z:". -/
def cubeName : Dim → List Char := fun d => if d = 1 then ['x'] else if d = 2 then ['y', '-'] else ['z', ':']
def cube : View := ⟨[(1, 2), (2, 3), (3, 2)], [6, 2, 1], 0, false⟩

example : cube.WF := by
  refine ⟨⟨by decide, by decide⟩, by decide, by decide⟩

example : (collapse cubeName cube 2).map (·.map (fun e => (String.ofList e.1, e.2))) = .ok
    [("x:0-z::0", ⟨[(2, 3)], [2], 0, false⟩), ("x:1-z::0", ⟨[(2, 3)], [2], 6, false⟩),
     ("x:0-z::1", ⟨[(2, 3)], [2], 1, false⟩), ("x:1-z::1", ⟨[(2, 3)], [2], 7, false⟩)] := by decide +kernel

/-- Nothing to collapse: the object itself under the empty text. -/
example : collapse cubeName ⟨[(1, 2)], [1], 0, false⟩ 1 = .ok [([], ⟨[(1, 2)], [1], 0, false⟩)] := by decide +kernel

/-- No slices along an empty dim. -/
example : collapse cubeName ⟨[(1, 2), (2, 0)], [0, 1], 0, false⟩ 1 = .ok [] := by decide +kernel

example : (slices cubeName cube 2).map (·.map (fun e => (String.ofList e.1, e.2))) = .ok
    [("y-:0", ⟨[(1, 2), (3, 2)], [6, 1], 0, false⟩), ("y-:1", ⟨[(1, 2), (3, 2)], [6, 1], 2, false⟩),
     ("y-:2", ⟨[(1, 2), (3, 2)], [6, 1], 4, false⟩)] := by decide +kernel

/-- C119: `slices` gives every slice along the dim, each exactly once, under the text of its index; a dim that is not there is an error. -/
theorem C119_slices (name : Dim → List Char) (v : View) (hv : v.WF) (dim : Dim) :
    (∀ n, (dim, n) ∈ v.dims → ∃ out, slices name v dim = .ok out ∧ AllSlices name v [(dim, n)] out) ∧
    ((∀ n, (dim, n) ∉ v.dims) → slices name v dim = .error .invalidArgument) := by
  unfold slices
  refine ⟨fun n hn => ?_, fun hn => ?_⟩
  · cases hf : v.dims.find? (fun d => d.1 == dim) with
    | none =>
      have := List.find?_eq_none.1 hf _ hn
      simp at this
    | some d =>
      have h1 : d.1 = dim := by simpa using List.find?_some hf
      have h2 := List.mem_of_find?_eq_some hf
      have h3 : d = (dim, n) := by
        have := List.inj_on_of_nodup_map hv.1.1 h2 hn h1
        exact this
      subst h3
      exact toSlices_spec name v hv [(dim, n)] (by simpa using hn) (by simp)
  · have : v.dims.find? (fun d => d.1 == dim) = none := by
      rw [List.find?_eq_none]
      intro d hd h
      have : d.1 = dim := by simpa using h
      exact hn d.2 (by rw [← this]; exact hd)
    rw [this]

end Scipp.Props
