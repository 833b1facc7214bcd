import Verif.Model.FitEffects

/-!
# Data preparation of the univariate forecasters (`sktime/univariate.py` 239-344)
-/

namespace PV
section
variable {S Sc τ V D K : Type}

/-- `X.loc[idx]` for a frame with a one-level index: the rows of every label in the order of
`idx`; `KeyError` if a label is missing. (`sktime/univariate.py` 278.) -/
def Frame.locTimes [DecidableEq τ] (x : Frame String τ V) (idx : List τ) :
    PyM (Frame String τ V) :=
  if ∀ t ∈ idx, ∃ r ∈ x.rows, r.time = t then
    .ok { x with rows := idx.flatMap fun t => x.rows.filter fun r => r.time = t }
  else .error .keyError

/-- `pd.DataFrame(index=idx)`: rows without columns. (`sktime/univariate.py` 271, 328.) -/
def Frame.ofIndex [Zero V] (idx : List τ) : Frame String τ V :=
  { nlevels := 1, cols := [], rows := idx.map fun t => ⟨[], t, fun _ => 0⟩ }

/-- The configuration of a univariate forecaster that data preparation reads.  `fitFeatures`
and `features`: `feature_transformer.fit_transform` / `.transform` (identity when `None`).
(`sktime/univariate.py` 150-202.) -/
structure UniConfig (S Sc τ V D K : Type) where
  compile : String → PyM (String → Bool)
  trend : EffectObj S (Frame String τ K) Sc τ V D K
  effects : List (EffectSpec S (Frame String τ K) Sc τ V D K)
  default : EffectObj S (Frame String τ K) Sc τ V D K
  fitFeatures : Frame String τ V → PyM (Frame String τ V)
  features : Frame String τ V → PyM (Frame String τ V)
  discrete : Bool
  /-- default value of the `scale` parameter of `BaseEffect.fit`, `1.0`. -/
  unitScale : Sc
  /-- `self._scale` as given to the effects -/
  effectScale : Sc
  /-- `self._scale` as a number -/
  scale : K

/-- What `_get_fit_data` leaves behind: arguments of the model and fitted objects.
(`sktime/univariate.py` 257-304.) -/
structure UniFit (S Sc τ V D K : Type) where
  trend : EffectObj S (Frame String τ K) Sc τ V D K
  fitted : List (FittedEffect S (Frame String τ K) Sc τ V D K)
  warnings : List EffectWarning
  trendData : Transformed D
  data : PyDict (Transformed D)
  objs : PyDict (EffectObj S (Frame String τ K) Sc τ V D K)
  yArray : List K

/-- `_get_fit_data` (`sktime/univariate.py` 239-304).  `y` has a one-level index.
`~X.columns.empty` (277) is truthy for every frame, so the effects are always passed on. -/
def uniFitData [DecidableEq τ] [Zero V] [Div K] (cfg : UniConfig S Sc τ V D K)
    (y : Frame String τ K) (X : Option (Frame String τ V)) : PyM (UniFit S Sc τ V D K) := do
  let fh := unique y.times
  let yTrend := if cfg.discrete then y.mapVals fun _ v => v / cfg.scale else y
  let trend ← cfg.trend.fit yTrend X cfg.unitScale
  let x ← cfg.fitFeatures (X.getD (Frame.ofIndex y.times))
  let x ← x.locTimes y.times
  let trendData ← trend.transform (some x) fh
  let (fitted, warnings) ← fitEffects cfg.compile cfg.effects cfg.default (some x) y cfg.effectScale
  let data ← transformEffects fitted x fh
  let objs ← nonSkipped fitted
  pure { trend := trend, fitted := fitted, warnings := warnings, trendData := trendData,
         data := data, objs := objs, yArray := y.flatVals y.rows }

/-- `_get_predict_data` (`sktime/univariate.py` 306-344): trend data and effect data. -/
def uniPredictData [DecidableEq τ] [Zero V] (cfg : UniConfig S Sc τ V D K)
    (m : UniFit S Sc τ V D K) (X : Option (Frame String τ V)) (fh : List τ) :
    PyM (Transformed D × PyDict (Transformed D)) := do
  let x ← cfg.features (X.getD (Frame.ofIndex fh))
  let trendData ← m.trend.transform (some x) fh
  let data ← transformEffects m.fitted x fh
  pure (trendData, data)

end
end PV
