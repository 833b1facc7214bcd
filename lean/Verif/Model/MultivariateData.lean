import Verif.Model.Expand
import Verif.Model.FitEffects
import Verif.Model.MultiIndex

/-!
# Data preparation of `HierarchicalProphet` (`sktime/multivariate.py` 216-347)
-/

namespace PV
section
variable {S Sc τ D K : Type} [Field K] [LinearOrder K] [LinearOrder τ]

/-- `pd.DataFrame(index=idx)` for a multi-index with `nl` levels. (`sktime/multivariate.py` 252, 325.) -/
def Frame.ofMultiIndex (nl : Nat) (idx : List (List String × τ)) : Frame String τ K :=
  { nlevels := nl, cols := [], rows := idx.map fun k => ⟨k.1, k.2, fun _ => 0⟩ }

/-- The configuration data preparation reads.  `keep`: aggregates kept by sktime's `Aggregator`;
`order`: iteration order of a Python set (see `ExpandColumnPerLevel`); `fitFeatures` and
`features`: the feature transformer (identity when `None`). (`sktime/multivariate.py` 151-202.) -/
structure HierConfig (S Sc τ D K : Type) where
  compile : String → PyM (String → Bool)
  order : List String → List String
  keep : List String → Bool
  trend : EffectObj S (Frame String τ K) Sc τ K D K
  effects : List (EffectSpec S (Frame String τ K) Sc τ K D K)
  default : EffectObj S (Frame String τ K) Sc τ K D K
  fitFeatures : Frame String τ K → PyM (Frame String τ K)
  features : Frame String τ K → PyM (Frame String τ K)
  shared : List String
  scale : Sc

/-- What `_get_fit_data` leaves behind.  `expand = none`: `_has_exogenous_variables` is false.
(`sktime/multivariate.py` 259-298.) -/
structure HierFit (S Sc τ D K : Type) where
  trend : EffectObj S (Frame String τ K) Sc τ K D K
  expand : Option ExpandState
  fitted : List (FittedEffect S (Frame String τ K) Sc τ K D K)
  warnings : List EffectWarning
  trendData : Transformed D
  data : PyDict (Transformed D)
  objs : PyDict (EffectObj S (Frame String τ K) Sc τ K D K)
  yArray : Tensor K
  internalIndex : List (List String × τ)
  /-- the argument `is_single_series` of the model -/
  single : Bool

/-- `X`, or rows without columns if there is none (`sktime/multivariate.py` 251-252). -/
def exogOr (X : Option (Frame String τ K)) (empty : Frame String τ K) : Frame String τ K :=
  match X with
  | none => empty
  | some x => if x.cols = [] then empty else x

/-- Fitting the expansion of columns, if there are columns (`sktime/multivariate.py` 259-275). -/
def fitExpand (compile : String → PyM (String → Bool)) (order : List String → List String)
    (shared : List String) (x : Frame String τ K) :
    PyM (Option ExpandState × Frame String τ K) :=
  if x.cols = [] then .ok (none, x)
  else do
    let st ← expandFit compile order (nonShared x.cols shared) x
    let x ← expandTransform st x
    pure (some st, x)

/-- The exogenous variables as the trend and the effects see them in `fit`
(`sktime/multivariate.py` 251-275). -/
def hierExog (cfg : HierConfig S Sc τ D K) (yA : Frame String τ K)
    (X : Option (Frame String τ K)) : PyM (Option ExpandState × Frame String τ K) := do
  let x ← locBottom (exogOr X (Frame.ofMultiIndex yA.nlevels yA.index))
  let x ← cfg.fitFeatures x
  fitExpand cfg.compile cfg.order cfg.shared x

/-- `_get_fit_data` (`sktime/multivariate.py` 216-298); `y` is the scaled target. -/
def hierFitData (cfg : HierConfig S Sc τ D K) (y : Frame String τ K)
    (X : Option (Frame String τ K)) : PyM (HierFit S Sc τ D K) := do
  let yB ← locBottom (aggregate cfg.keep y)
  let yArray ← yB.seriesToTensor
  let (expand, x) ← hierExog cfg (aggregate cfg.keep y) X
  let trend ← cfg.trend.fit yB (some x) cfg.scale
  let trendData ← trend.transform (some x) (unique y.times)
  let (fitted, warnings) ← fitEffects cfg.compile cfg.effects cfg.default (some x) yB cfg.scale
  let data ← transformEffects fitted x (unique y.times)
  let objs ← nonSkipped fitted
  pure { trend := trend, expand := expand, fitted := fitted, warnings := warnings,
         trendData := trendData, data := data, objs := objs, yArray := yArray,
         internalIndex := (aggregate cfg.keep y).index,
         single := decide (nSeries (aggregate cfg.keep y).nlevels
           ((aggregate cfg.keep y).index.map Prod.fst) = 1) }

/-- `X` for predicting when none is given: the series of the target at the horizon times
(`sktime/multivariate.py` 323-326).  `levels`: see `reindexTimeSeries`. -/
def emptyExog (keep : List String → Bool) (levels : List (List String)) (y : Frame String τ K)
    (fh : List τ) : PyM (Frame String τ K) :=
  (reindexTimeSeries levels y fh).map fun g =>
    aggregate keep (Frame.ofMultiIndex y.nlevels g.index)

/-- `X` as used by `_get_predict_data` (`sktime/multivariate.py` 323-328). -/
def predictExog (keep : List String → Bool) (levels : List (List String)) (y : Frame String τ K)
    (X : Option (Frame String τ K)) (fh : List τ) : PyM (Frame String τ K) :=
  match X with
  | none => do locBottom (← emptyExog keep levels y fh)
  | some x => if x.cols = [] then do locBottom (← emptyExog keep levels y fh) else locBottom x

/-- Feature transformer and expansion, after the assertion that all horizon times occur
(`sktime/multivariate.py` 330-337). -/
def predictExpand (features : Frame String τ K → PyM (Frame String τ K)) (expand : Option ExpandState)
    (x : Frame String τ K) (fh : List τ) : PyM (Frame String τ K) :=
  match expand with
  | none => .ok x
  | some st =>
    if ∀ t ∈ fh, t ∈ x.times then do
      let x ← features x
      expandTransform st x
    else .error .assertionError

/-- `_get_predict_data` (`sktime/multivariate.py` 300-347): trend data and effect data.  `y` is the
target given to `fit`. -/
def hierPredictData (cfg : HierConfig S Sc τ D K) (m : HierFit S Sc τ D K)
    (levels : List (List String)) (y : Frame String τ K) (X : Option (Frame String τ K))
    (fh : List τ) : PyM (Transformed D × PyDict (Transformed D)) := do
  let x ← predictExog cfg.keep levels y X fh
  let x ← predictExpand cfg.features m.expand x fh
  let trendData ← m.trend.transform (some x) fh
  let data ← transformEffects m.fitted x fh
  pure (trendData, data)

end
end PV
