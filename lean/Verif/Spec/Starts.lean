import Verif.Model.Detrend

/-!
# Where a piecewise trend starts

The initial values of a piecewise trend are read off the target as it is (`trend="linear_raw"`) or off
the least squares line of each series (all other piecewise trends, unless the user says otherwise).
-/

namespace PV
variable {K τ : Type} [Field K]

/-- Either of the two; `pos` is the position of a date on the axis of the line. -/
def Starts (p : PiecewiseParams K τ) : Prop :=
  p.detrend = none ∨ ∃ pos, p.detrend = some fun y => .ok (fittedLines pos y)

/-- The table the initial values are read off has the rows and columns of the target. -/
theorem Starts.detrended {p : PiecewiseParams K τ} (h : Starts p) (y : Frame String τ K) :
    ∃ y', detrended p y = .ok y' ∧ y'.nlevels = y.nlevels ∧ y'.cols = y.cols ∧ y'.index = y.index := by
  unfold PV.detrended
  rcases h with h | ⟨pos, h⟩
  · rw [h]
    exact ⟨y, rfl, rfl, rfl, rfl⟩
  · rw [h]
    exact ⟨_, rfl, rfl, rfl, by simp [fittedLines, Frame.index, Function.comp_def]⟩

/-- The same for a table that is known. -/
theorem Starts.same {p : PiecewiseParams K τ} (h : Starts p) {y y' : Frame String τ K}
    (hy : PV.detrended p y = .ok y') :
    y'.nlevels = y.nlevels ∧ y'.cols = y.cols ∧ y'.index = y.index := by
  obtain ⟨z, hz, h1⟩ := h.detrended y
  rw [hy] at hz
  cases hz
  exact h1

end PV
