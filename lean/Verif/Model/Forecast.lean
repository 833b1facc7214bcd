import Verif.Model.PredictFrames

/-!
# Fit and predict, as far as the target is concerned

`_fit` (`sktime/base.py` 221-272) followed by `predict_samples` (415-446) with a continuous
or discrete likelihood.  Everything between the scaled target and the draws of the
observation site (data preparation `_get_fit_data` / `_get_predict_data`, numpyro model,
inference engine, `Predictive`) is one arbitrary function `engine` of the target frame
handed to `_get_fit_data`.  Simplification: the scale itself is handed to `_get_fit_data`
too (`scale=self._scale`), but is only read by lift-experiment effects and the negative
binomial model; hence no statement about those is derived from this model.
`internal` gives the series labels of `internal_y_indexes_` from the index of `y` (the
aggregator only looks at labels for that).
-/

namespace PV
variable {K τ : Type} [Field K] [LinearOrder K] [LinearOrder τ]

/-- `_fit` up to the inference engine: the scale and the target handed to the model.
(`sktime/base.py` 239-243.) -/
def fitTarget (discrete : Bool) (user : Option (Scale K)) (y : Frame String τ K) :
    PyM (Scale K × Frame String τ K) := do
  let s ← setYScales user y
  let ys ← scaleY discrete s y
  pure (s, ys)

/-- `fit(y)` followed by `predict_samples(fh)`. (`sktime/base.py` 221-272, 415-446.) -/
def fitPredictSamples (engine : Frame String τ K → Tensor K)
    (internal : List (List String × τ) → List (List String)) (hierarchical discrete : Bool)
    (user : Option (Scale K)) (y : Frame String τ K) (fh : List τ) : PyM (Frame Nat τ K) := do
  let (s, ys) ← fitTarget discrete user y
  let ctx : Fitted K :=
    { yNlevels := y.nlevels, internalSids := internal y.index, hierarchical := hierarchical,
      discrete := discrete, scale := s }
  predictSamples ctx (engine ys) fh

end PV
