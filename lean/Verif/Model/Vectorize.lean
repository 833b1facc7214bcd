import Verif.Model.MultiIndex

/-!
# Univariate forecasters on panels (`sktime/base.py` 724-764)

sktime splits the panel, clones the forecaster once per series and keeps the fitted clones in
`forecasters_`, a data frame with one row per series; the package's own prediction methods
(`predict_samples`, `predict_all_sites`, `predict_all_sites_samples`) loop over it.
-/

namespace PV
section
variable {F H ι τ V W : Type}

/-- `for _ in range(nlevels - 1): X = X.droplevel(0)` (`sktime/base.py` 760-761): the time is
left. -/
def Frame.dropSeriesLevels (f : Frame ι τ V) : Frame ι τ V :=
  { nlevels := 1, cols := f.cols, rows := f.rows.map fun r => ⟨[], r.time, r.val⟩ }

/-- The exogenous variables handed to the forecaster of one series (`sktime/base.py` 755-761);
`sid`: the label in the index of `forecasters_`. -/
def vectorExog (X : Option (Frame String τ V)) (sid : List String) :
    PyM (Option (Frame String τ V)) :=
  match X with
  | none => .ok none
  | some x => do
    let g ← getMultiindexLoc x [idxVal sid.length sid]
    pure (some g.dropSeriesLevels)

/-- `_vectorize_predict_method` (`sktime/base.py` 724-764).  `method`: the method of one
forecaster; `forecasters`: the rows of `forecasters_`; `fh`: the horizon, handed on as it is.
`pd.concat` of nothing is a `ValueError`. -/
def vectorizePredict (method : F → Option (Frame String τ V) → H → PyM (Frame ι τ W))
    (forecasters : List (List String × F)) (X : Option (Frame String τ V)) (fh : H) :
    PyM (Frame ι τ W) := do
  let outs ← forecasters.mapM fun p => do
    let x ← vectorExog X p.1
    method p.2 x fh
  if outs.isEmpty then throw .valueError else pure (vectorizeConcat outs)

/-- sktime's `_vectorize("fit")`: one clone per series, fitted on the rows of the series (contract of
the third-party code; the series in order of appearance).
sktime; its result is read at `sktime/base.py` 752-753. -/
def vectorizeFit (fit : Frame String τ W → Option (Frame String τ V) → PyM F)
    (y : Frame String τ W) (X : Option (Frame String τ V)) : PyM (List (List String × F)) :=
  y.series.mapM fun s => do
    let f ← fit { nlevels := 1, cols := y.cols, rows := (y.rowsOf s).map fun r => ⟨[], r.time, r.val⟩ }
      (X.map fun x =>
        { nlevels := 1, cols := x.cols, rows := (x.rowsOf s).map fun r => ⟨[], r.time, r.val⟩ })
    pure (s, f)

end
end PV
