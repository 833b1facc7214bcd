import Verif.Model.FitEffects

/-!
# `LiftExperimentLikelihood` (`effects/lift_experiment.py`)

`none` in a lift table (or in the observed array) is NaN.  Scales are numbers: the effect
does not support multivariate data, and for univariate data the scale is a float.
-/

namespace PV
section
variable {S Y τ V D K : Type}

/-- `lift_test_results.reindex(fh, fill_value=nan)`: one row per horizon time, in horizon
order; `ValueError` if a label occurs twice in the table. (`effects/lift_experiment.py` 104.) -/
def Frame.reindexTimes [DecidableEq τ] (f : Frame String τ (Option K)) (fh : List τ) :
    PyM (Frame String τ (Option K)) :=
  if f.times.Nodup then
    .ok { f with rows := fh.map fun t =>
      match f.rows.find? fun r => r.time = t with
      | some r => r
      | none => ⟨[], t, fun _ => none⟩ }
  else .error .valueError

/-- The wrapper: inner effect, lift table, `prior_scale`, the attributes of `BaseEffect` and
`timeseries_scale` (`none`: not set yet). (`effects/lift_experiment.py` 36-49.) -/
structure Lift (S Y τ V D K : Type) where
  inner : EffectObj S Y K τ V D K
  table : Frame String τ (Option K)
  priorScale : K
  base : BaseState
  tsScale : Option K

/-- Constructor (`effects/lift_experiment.py` 36-49). -/
def Lift.new [Zero K] [LT K] [DecidableLT K] (inner : EffectObj S Y K τ V D K)
    (table : Frame String τ (Option K)) (priorScale : K) : PyM (Lift S Y τ V D K) :=
  if 0 < priorScale then .ok ⟨inner, table, priorScale, .init, none⟩
  else .error .assertionError

/-- `fit` (`effects/lift_experiment.py` 51-79): inner effect first, then `BaseEffect.fit`. -/
def Lift.fit (l : Lift S Y τ V D K) (y : Y) (X : Option (Frame String τ V)) (scale : K) :
    PyM (Lift S Y τ V D K) := do
  let inner ← l.inner.fit y X scale
  let st ← baseFit (defaultHooks (Y := Y) liftTags : Hooks Unit Y K τ V (Tensor V))
    (l.base, ()) y X scale
  pure { l with inner := inner, tsScale := some scale, base := st.1 }

/-- What `_transform` returns: data of the inner effect and the observed lifts (the mask is
the set of entries that are not NaN). (`effects/lift_experiment.py` 101-109.) -/
structure LiftData (D K : Type) where
  inner : D
  observed : Tensor (Option K)

/-- The hook `_transform` (`effects/lift_experiment.py` 81-109): the hook `_transform` of the
inner effect is called directly. -/
def Lift.hookTransform [DecidableEq τ] [Div K] (l : Lift S Y τ V D K) (x : Frame String τ V)
    (fh : List τ) : PyM (LiftData D K) := do
  let d ← l.inner.cls.transform l.inner.st.2 x fh
  let xl ← l.table.reindexTimes fh
  let a ← xl.seriesToTensorOrArray
  match l.tsScale with
  | none => throw .attributeError
  | some s => pure ⟨d, a.map fun v => v.map (· / s)⟩

/-- `transform` of the base class (`effects/base.py` 176-221) for this class: never skipped
(tag), and the selected columns are those of the inner effect
(`effects/lift_experiment.py` 145-148). -/
def Lift.transform [DecidableEq τ] [Div K] (l : Lift S Y τ V D K)
    (X : Option (Frame String τ V)) (fh : List τ) : PyM (LiftData D K) :=
  match l.base.isFitted with
  | none => .error .attributeError
  | some false => .error .valueError
  | some true =>
    match X, l.inner.st.1.inputCols with
    | none, _ => .error .typeError
    | _, none => .error .attributeError
    | some x, some cols => do
      let x ← (x.filterTimes fh).select cols
      l.hookTransform x fh

/-- `_predict` (`effects/lift_experiment.py` 111-143): the value, and the pairs (location,
observation) that enter the likelihood `Normal(location, prior_scale)`: the entries of the
broadcast of effect and observations at which the mask is true. -/
def Lift.predict (l : Lift S Y τ V D K) [Zero K] (θ : SiteEnv K) (data : LiftData D K)
    (p : PyDict (Tensor K)) : PyM (Tensor K × List (K × K)) := do
  let x ← l.inner.cls.call l.inner.st θ (.data data.inner) p
  let pairs ← @Tensor.binop K (Option K) (K × Option K) _ ⟨none⟩ Prod.mk x data.observed
  pure (x, pairs.data.filterMap fun q => q.2.map fun o => (q.1, o))

end
end PV
