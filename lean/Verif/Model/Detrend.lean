import Verif.Model.Trend

/-!
# Removing seasonality before suggesting initial values

`Detrender()` of sktime (`effects/trend/piecewise.py` 347) fits a straight line with intercept by
least squares to every series and every column, over the position of the dates in the calendar
(`pos`), and returns the residuals.  This is a contract for third-party code.
-/

namespace PV
variable {K τ ι : Type} [Field K]

/-- The least squares line through the points `l`, at `x`.  If all points have the same position the
slope is 0, as for the minimum norm solution of scikit-learn. Used by `effects/trend/piecewise.py` 347-348. -/
def lineAt (l : List (K × K)) (x : K) : K :=
  let n : K := l.length
  let mx := (l.map Prod.fst).sum / n
  let my := (l.map Prod.snd).sum / n
  my + (l.map fun p => (p.1 - mx) * (p.2 - my)).sum / (l.map fun p => (p.1 - mx) ^ 2).sum * (x - mx)

/-- Position and value of the observations of one series. Used by `effects/trend/piecewise.py` 347-348. -/
def pointsOf (pos : τ → K) (y : Frame ι τ K) (s : List String) (c : ι) : List (K × K) :=
  (y.rowsOf s).map fun r => (pos r.time, r.val c)

/-- `y - Detrender().fit_transform(y)` (`effects/trend/piecewise.py` 346-348): the fitted lines. -/
def fittedLines (pos : τ → K) (y : Frame ι τ K) : Frame ι τ K :=
  { nlevels := y.nlevels, cols := y.cols
    rows := y.rows.map fun r =>
      ⟨r.sid, r.time, fun c => r.val c - (r.val c - lineAt (pointsOf pos y r.sid c) (pos r.time))⟩ }

end PV
