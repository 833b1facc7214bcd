import Mathlib.Algebra.Order.Ring.Rat
import Verif.Lemmas.Panel

/-!
# C53: panel to tensor
-/

namespace PV
open Tensor
variable {ι τ V : Type}

/-- **C53**, entries: the tensor of a panel has shape (series, times, columns), and entry
`(i, j, c)` is column `c` of the `j`-th row of the `i`-th series. -/
theorem C53_entries {f : Frame ι τ V} {t : Tensor V} (hlv : f.nlevels ≠ 1) (hr : f.rows ≠ [])
    (h : f.seriesToTensor = .ok t) :
    t.WF ∧ ∃ T, t.shape = [seriesCount f, T, f.cols.length] ∧
      (∀ i s, SeriesAt f i s → seriesLength f s = T) ∧
      ∀ i s j row c col, SeriesAt f i s → RowAt f s j row → f.cols[c]? = some col →
        t.get? [i, j, c] = some (row.val col) := by
  have hc : f.cols ≠ [] := by
    intro hc
    unfold Frame.seriesToTensor at h
    rw [if_pos hc] at h
    cases h
  rcases seriesToTensor_panel hlv hr hc with ⟨T, hT, he⟩ | ⟨-, he⟩
  · rw [he, Except.ok.injEq] at h
    subst h
    refine ⟨panel_wf hT, T, by rw [seriesCount_eq], ?_, ?_⟩
    · intro i s hs
      rw [seriesAt_iff] at hs
      rw [seriesLength_eq]
      exact hT s (List.mem_of_getElem? hs)
    · intro i s j row c col hs hrow hcol
      exact panel_get? hT (seriesAt_iff.1 hs) (rowAt_iff.1 hrow) hcol
  · rw [he] at h
    cases h

/-- **C53**, rejection: converting a panel (with at least one column) fails iff two of its
series have different numbers of rows, and then with `ValueError`. -/
theorem C53_ragged {f : Frame ι τ V} (hlv : f.nlevels ≠ 1) (hr : f.rows ≠ [])
    (hc : f.cols ≠ []) (e : PyErr) :
    f.seriesToTensor = .error e ↔ e = .valueError ∧
      ∃ r ∈ f.rows, ∃ r' ∈ f.rows, seriesLength f r.sid ≠ seriesLength f r'.sid := by
  have key : (∃ r ∈ f.rows, ∃ r' ∈ f.rows, seriesLength f r.sid ≠ seriesLength f r'.sid) ↔
      ∃ s ∈ f.series, ∃ s' ∈ f.series, (f.rowsOf s).length ≠ (f.rowsOf s').length := by
    simp only [seriesLength_eq]
    constructor
    · rintro ⟨r, hr, r', hr', hne⟩
      exact ⟨r.sid, mem_series.2 ⟨r, hr, rfl⟩, r'.sid, mem_series.2 ⟨r', hr', rfl⟩, hne⟩
    · rintro ⟨s, hs, s', hs', hne⟩
      obtain ⟨r, hr, rfl⟩ := mem_series.1 hs
      obtain ⟨r', hr', rfl⟩ := mem_series.1 hs'
      exact ⟨r, hr, r', hr', hne⟩
  rw [key]
  rcases seriesToTensor_panel hlv hr hc with ⟨T, hT, he⟩ | ⟨hne, he⟩
  · rw [he]
    constructor
    · intro h; cases h
    · rintro ⟨-, s, hs, s', hs', hne⟩
      exact absurd ((hT s hs).trans (hT s' hs').symm) hne
  · rw [he, Except.error.injEq]
    exact ⟨fun h => ⟨h.symm, hne⟩, fun h => h.1.symm⟩

/-- **C53** for flat data: one series, row `j` of the frame at position `j`. -/
theorem C53_flat {f : Frame ι τ V} (hlv : f.nlevels = 1) (hc : f.cols ≠ []) :
    ∃ t, f.seriesToTensor = .ok t ∧ t.WF ∧ t.shape = [1, f.rows.length, f.cols.length] ∧
      ∀ j row c col, f.rows[j]? = some row → f.cols[c]? = some col →
        t.get? [0, j, c] = some (row.val col) := by
  refine ⟨_, by unfold Frame.seriesToTensor; rw [if_neg hc, if_pos hlv], ?_, rfl, ?_⟩
  · unfold Tensor.WF
    rw [length_flatVals]
    simp [size]
  · intro j row c col hj hcol
    obtain ⟨hjl, -⟩ := List.getElem?_eq_some_iff.1 hj
    obtain ⟨hcl, -⟩ := List.getElem?_eq_some_iff.1 hcol
    unfold Tensor.get?
    simp only [ravel, size, Nat.mul_one, Nat.add_zero, Nat.zero_mul, Nat.zero_add]
    rw [flatVals_getElem? f _ hjl hcl, hj]
    simp [hcol]

/-! Example: two series, interleaved, two columns; and a ragged panel. -/

def exPanel53 : Frame String Nat ℚ :=
  { nlevels := 2, cols := ["x", "z"],
    rows := [⟨["b"], 0, fun c => if c = "x" then 1 else 10⟩,
      ⟨["a"], 0, fun c => if c = "x" then 2 else 20⟩,
      ⟨["a"], 1, fun c => if c = "x" then 3 else 30⟩,
      ⟨["b"], 1, fun c => if c = "x" then 4 else 40⟩] }

example : exPanel53.seriesToTensor = .ok ⟨[2, 2, 2], [1, 10, 4, 40, 2, 20, 3, 30]⟩ := by
  decide +kernel
example : ({ exPanel53 with rows := exPanel53.rows.drop 1 } : Frame String Nat ℚ).seriesToTensor
    = .error .valueError := by decide +kernel
example : exPanel53.nlevels ≠ 1 ∧ exPanel53.rows ≠ [] ∧ exPanel53.cols ≠ [] :=
  ⟨by decide, by simp [exPanel53], by simp [exPanel53]⟩

end PV
