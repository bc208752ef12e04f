import Verif.Lemmas.RebinDims

namespace Scipp.Props
open Scipp Scipp.RebinDims

/-- C120: rebinning along several dims gives every new bin the sum over all old bins of the counts times the fractions along all dims. Elements count as zero if masked by a mask which depends on one of the
dims. Sizes along other dims do not change. Missing: edges which depend on other dims (`C120_wrong_order`). -/
theorem C120_values_partial (a : Array) (ha : a.WF) (jobs : List Job) (hn : (jobs.map (·.dim)).Nodup) (hj : ∀ j ∈ jobs, j.Fits a) (f : (Dim → Int) → ℚ)
    (hf : ∀ c, InDims a.dims c → a.val c = some (f c)) :
    ∃ out, rebinAll a (jobs.map fun j => (j.dim, along j.dim j.new)) = .ok out ∧ out.dims = newDims a.dims jobs ∧
      ∀ c, InDims out.dims c → out.val c = some (rebinnedAt a.masks jobs f c) := by
  obtain ⟨out, h1, h2, _, _, _, h6⟩ := RebinDims.all jobs a ha hn hj f hf
  exact ⟨out, h1, h2, h6⟩

/-- C120: what is left besides the data. Coords are the new edges and those which do not depend on the dims; masks those which do not. -/
theorem C120_metadata_partial (a : Array) (ha : a.WF) (jobs : List Job) (hn : (jobs.map (·.dim)).Nodup) (hj : ∀ j ∈ jobs, j.Fits a) (f : (Dim → Int) → ℚ)
    (hf : ∀ c, InDims a.dims c → a.val c = some (f c)) (out : Array) (h : rebinAll a (jobs.map fun j => (j.dim, along j.dim j.new)) = .ok out) :
    out.masks = a.masks.filter (fun e => ∀ j ∈ jobs, j.dim ∉ e.2.dims) ∧ (out.coords.map (·.1)).Nodup ∧
    ∀ e, e ∈ out.coords ↔ (∃ j ∈ jobs, e = (j.dim, along j.dim j.new)) ∨ (e ∈ a.coords ∧ ∀ j ∈ jobs, e.1 ≠ j.dim ∧ j.dim ∉ e.2.dims.map (·.1)) := by
  obtain ⟨out', h1, _, h3, h4, h5, _⟩ := RebinDims.all jobs a ha hn hj f hf
  obtain rfl : out' = out := Except.ok.inj (h1.symm.trans h)
  exact ⟨h3, h4, h5⟩

/-- C120: the order in which the dims are given does not matter. Missing: edges which depend on other dims (`C120_wrong_order`). -/
theorem C120_order_partial (a : Array) (ha : a.WF) (jobs jobs' : List Job) (hp : jobs.Perm jobs') (hn : (jobs.map (·.dim)).Nodup) (hj : ∀ j ∈ jobs, j.Fits a)
    (f : (Dim → Int) → ℚ) (hf : ∀ c, InDims a.dims c → a.val c = some (f c)) :
    ∃ out out', rebinAll a (jobs.map fun j => (j.dim, along j.dim j.new)) = .ok out ∧ rebinAll a (jobs'.map fun j => (j.dim, along j.dim j.new)) = .ok out' ∧
      out.dims = out'.dims ∧ out.masks = out'.masks ∧ out.coords.Perm out'.coords ∧ ∀ c, InDims out.dims c → out.val c = out'.val c := by
  obtain ⟨out, h1, h2, h3, h4, h5, h6⟩ := RebinDims.all jobs a ha hn hj f hf
  obtain ⟨out', g1, g2, g3, g4, g5, g6⟩ := RebinDims.all jobs' a ha ((hp.map _).nodup_iff.1 hn) (fun j h => hj j (hp.mem_iff.2 h)) f hf
  have hd : out.dims = out'.dims := by rw [h2, g2, newDims_perm _ hp hn]
  refine ⟨out, out', h1, g1, hd, ?_, ?_, ?_⟩
  · rw [h3, g3]
    apply List.filter_congr
    intro e _
    rw [decide_eq_decide]
    exact forall_congr' fun j => by rw [hp.mem_iff]
  · refine (List.perm_ext_iff_of_nodup (List.Nodup.of_map _ h4) (List.Nodup.of_map _ g4)).2 ?_
    intro e
    rw [h5, g5]
    simp only [hp.mem_iff]
  · intro c hc
    rw [h6 c hc, g6 c (hd ▸ hc), rebinnedAt_perm _ hp hn]

/-- C120: if the new edges span the old ones along every dim, the total of all elements that are not masked is conserved. -/
theorem C120_conserved_partial (a : Array) (ha : a.WF) (jobs : List Job) (hn : (jobs.map (·.dim)).Nodup) (hj : ∀ j ∈ jobs, j.Fits a)
    (hs : ∀ j ∈ jobs, Spans j.new j.old) (f : (Dim → Int) → ℚ) (hf : ∀ c, InDims a.dims c → a.val c = some (f c)) :
    ∃ out, rebinAll a (jobs.map fun j => (j.dim, along j.dim j.new)) = .ok out ∧ ∃ g : (Dim → Int) → ℚ, (∀ c, InDims out.dims c → out.val c = some (g c)) ∧
      ∀ c, total (jobs.map fun j => (j.dim, j.new.length - 1)) g c =
        total (jobs.map fun j => (j.dim, j.old.length - 1)) (unmasked a.masks (jobs.map (·.dim)) f) c := by
  obtain ⟨out, h1, _, _, _, _, h6⟩ := RebinDims.all jobs a ha hn hj f hf
  refine ⟨out, h1, _, h6, ?_⟩
  intro c
  exact total_shares jobs hn (fun j h i hi => share_sum j.old j.new (hj j h).monotonic (hs j h) i hi) _ c

/-- A 2×2 array with x from 0 to 2 and y from 0 to 4, and one masked element. -/
def square : Array :=
  ⟨[(1, 2), (2, 2)], fun c => some (4 * c 1 + 8 * c 2 + 4), [(1, along 1 [0, 1, 2]), (2, along 2 [4, 2, 0])], [(9, ⟨[1, 2], fun c => decide (c 1 = 1 ∧ c 2 = 0)⟩)]⟩

def squareJobs : List Job := [⟨1, [0, 1, 2], [0, 1/2, 2]⟩, ⟨2, [4, 2, 0], [4, 3, 0, -1]⟩]

theorem square_wf : square.WF := by
  refine ⟨by decide, by decide, ?_⟩
  intro e he c c' h
  simp only [square, List.mem_singleton] at he
  subst he
  have h1 := h 1 (by simp)
  have h2 := h 2 (by simp)
  simp only [h1, h2]

theorem square_fits : ∀ j ∈ squareJobs, j.Fits square := by
  intro j hj
  simp only [squareJobs, List.mem_cons, List.not_mem_nil, or_false] at hj
  rcases hj with rfl | rfl
  · refine ⟨by simp [square], by simp [square], by simp, .inl ⟨?_, ?_⟩⟩ <;>
    · apply increasing_of_steps
      intro i hi
      have hi' : i < 2 := by simp at hi; omega
      interval_cases i <;> norm_num
  · refine ⟨by simp [square], by simp [square], by simp, .inr ⟨?_, ?_⟩⟩
    · apply decreasing_of_steps
      intro i hi
      have hi' : i < 2 := by simp at hi; omega
      interval_cases i <;> norm_num
    · apply decreasing_of_steps
      intro i hi
      have hi' : i < 3 := by simp at hi; omega
      interval_cases i <;> norm_num

example := C120_values_partial square square_wf squareJobs (by decide) square_fits (fun c => 4 * c 1 + 8 * c 2 + 4) (fun _ _ => rfl)
example := C120_metadata_partial square square_wf squareJobs (by decide) square_fits (fun c => 4 * c 1 + 8 * c 2 + 4) (fun _ _ => rfl)
example := C120_order_partial square square_wf squareJobs squareJobs.reverse (List.reverse_perm _).symm (by decide) square_fits (fun c => 4 * c 1 + 8 * c 2 + 4) (fun _ _ => rfl)
example := C120_conserved_partial square square_wf squareJobs (by decide) square_fits (by
  intro j hj x hx
  simp only [squareJobs, List.mem_cons, List.not_mem_nil, or_false] at hj
  rcases hj with rfl | rfl
  · refine ⟨0, by simp, 2, by simp, ?_⟩
    simp only [List.mem_cons, List.not_mem_nil, or_false] at hx
    rcases hx with rfl | rfl | rfl <;> norm_num
  · refine ⟨-1, by simp, 4, by simp, ?_⟩
    simp only [List.mem_cons, List.not_mem_nil, or_false] at hx
    rcases hx with rfl | rfl | rfl <;> norm_num) (fun c => 4 * c 1 + 8 * c 2 + 4) (fun _ _ => rfl)

example : (rebinAll square (squareJobs.map fun j => (j.dim, along j.dim j.new))).map (fun r => (r.dims,
    [(0, 0), (0, 1), (0, 2), (1, 0), (1, 1), (1, 2)].map fun p => r.val (fun d => if d = 1 then p.1 else p.2), r.coords.map (·.1), r.masks.length)) =
    .ok ([(1, 2), (2, 3)], [some 1, some 7, some 0, some 1, some 23, some 0], [1, 2], 0) := by decide +kernel

/-- Edges along y which depend on x. -/
def skewed : Array :=
  ⟨[(1, 2), (2, 1)], fun _ => some 1, [(1, along 1 [0, 1, 2]), (2, ⟨[(1, 2), (2, 2)], fun c => c 1 + c 2⟩)], []⟩

/-- C120, not true: with edges along y which depend on x, rebinning along y and then x works, but along x and then y is an error: the edges are dropped by the first step. -/
theorem C120_wrong_order :
    ((rebinAll skewed [(2, along 2 [0, 2]), (1, along 1 [0, 2])]).map fun r => (r.dims, r.val (fun _ => 0))) = .ok ([(1, 1), (2, 1)], some 2) ∧
    (rebinAll skewed [(1, along 1 [0, 2]), (2, along 2 [0, 2])]).map (fun r => r.dims) = .error .notFound := by
  constructor <;> decide +kernel

end Scipp.Props
