import Verif.Model.Engine
import Verif.Model.Forecast
import Verif.Model.MultivariateData
import Verif.Model.UnivariateData

/-!
# Forecaster objects that share configuration objects

Python variables hold references.  The world has one heap with all effect and trend objects (a
reference is a position), one with the feature transformers, and a list of forecasters, univariate
and hierarchical.  `clone()` puts a new object at the end of the heap, `fit` changes an object in
place, and a configuration that was given an object only knows its reference.

Modelled: `_fit`, `predict`, `predict_quantiles`, `predict_samples`, `predict_all_sites` and
`predict_all_sites_samples` of a univariate forecaster on one series and of `HierarchicalProphet`
(`sktime/base.py` 221-446, 555-590, 891-1066; `sktime/univariate.py` 239-344;
`sktime/multivariate.py` 216-366), with sktime's `fit` (which first resets the object) and the check
for a fitted object in `predict` and `predict_quantiles`.

Simplifications: the horizon is passed to every call; exogenous values have the type of the target;
an effect whose `fit` raises is left as it was; the attributes written by `_get_fit_data` appear all
at once at its end.
-/

namespace PV

/-- A feature transformer object.  `fit_transform` changes its state even if it raises.
(`sktime/univariate.py` 275, 331, `sktime/multivariate.py` 257, 336.) -/
structure FeatureObj (F τ K : Type) where
  fitTransform : F → Frame String τ K → PyM (Frame String τ K) × F
  transform : F → Frame String τ K → PyM (Frame String τ K)
  st : F

/-- The trend argument: a name, for which `_get_trend_model` makes the object `fresh`, or a
reference to the user's object, which it returns as it is (`sktime/base.py` 1012-1066). -/
inductive TrendSrc (O : Type) where
  | named (fresh : O)
  | object (r : Nat)

/-- Effect and trend objects. (`effects/base.py` 17-310.) -/
abbrev Obj (S τ D K : Type) := EffectObj S (Frame String τ K) (Scale K) τ K D K

/-- What `HierarchicalProphet` needs besides: see `HierConfig` for `order`, `keep` and `shared`.
`levels`: the level values of the index of the target (see `reindexTimeSeries`).
(`sktime/multivariate.py` 151-202, 324.) -/
structure HierOpts (τ K : Type) where
  order : List String → List String
  keep : List String → Bool
  shared : List String
  levels : Frame String τ K → List (List String)

/-- The constructor arguments of a forecaster, objects by reference.  `linear` is the `LinearEffect`
made when there is no default effect (`sktime/base.py` 945-951).  `hier = none`: a univariate
forecaster.  (`HierarchicalProphet` has `discrete = false` and `scale = none`.) -/
structure FcConfig (S τ D K κ G : Type) where
  compile : String → PyM (String → Bool)
  trend : TrendSrc (Obj S τ D K)
  effects : List (String × Nat × Option String)
  default : Option Nat
  linear : Obj S τ D K
  features : Option Nat
  hier : Option (HierOpts τ K)
  discrete : Bool
  scale : Option (Scale K)
  rngKey : Option κ
  method : String
  settings : G

/-- Arguments that only one of the models has, as stored in `fit_and_predict_data_`
(`sktime/univariate.py` 288-295, `sktime/multivariate.py` 285-291).  (Numbers that are constructor
arguments are part of the settings of the engine.) -/
inductive ModelKwargs (K : Type) where
  | univariate (scale : Scale K)
  | hierarchical (single : Bool)

/-- Arguments of the numpyro model (`sktime/univariate.py` 285-304, 339-344;
`sktime/multivariate.py` 285-298, 342-347). -/
structure ModelArgs (D K : Type) where
  y : Option (Tensor K)
  trend : EffectCall (Transformed D) K
  trendData : Transformed D
  effects : PyDict (EffectCall (Transformed D) K)
  data : PyDict (Transformed D)
  kwargs : ModelKwargs K

/-- Attributes written by `_fit` before inference: `_scale`, `trend_model_`,
`exogenous_effects_`, the contents of `fit_and_predict_data_`, the target `_y`, the series labels of
`internal_y_indexes_`, and `expand_columns_transformer_` (`none` if `_has_exogenous_variables` is
false). (`sktime/base.py` 239-245, `sktime/univariate.py` 259-295, `sktime/multivariate.py` 235-291.) -/
structure Prepared (τ K : Type) where
  scale : Scale K
  trend : Nat
  fitted : List (String × Nat × List String)
  objs : PyDict Nat
  kwargs : ModelKwargs K
  y : Frame String τ K
  ySids : List (List String)
  expand : Option ExpandState

/-- What `engine.predict` returns (`engine.py` 176-198, 301-320; `sktime/base.py` 357). -/
abbrev Draws (K : Type) := PyDict (Tensor K)

/-- A forecaster object. (`sktime/base.py` 70-94, 221-272.) -/
structure Fc (S τ D K κ G Θ P : Type) where
  cfg : FcConfig S τ D K κ G
  prepared : Option (Prepared τ K)
  engine : Option (Engine κ G K Θ P (Draws K))
  posterior : Option P
  isFitted : Bool

/-- All objects. (`engine.py` 197 writes `numpyro.samples_`.) -/
structure World (S τ D K F κ G Θ P : Type) where
  heap : List (Obj S τ D K)
  feats : List (FeatureObj F τ K)
  fcs : List (Fc S τ D K κ G Θ P)
  /-- `numpyro.samples_` -/
  samples : Option (Draws K)

section heap
variable {S τ D K : Type}

/-- A computation on the heap, which stays changed when an exception is raised.
(E.g. `sktime/base.py` 916-934.) -/
def OnHeap (S τ D K α : Type) := List (Obj S τ D K) → PyM α × List (Obj S τ D K)

instance : Monad (OnHeap S τ D K) where
  pure a := fun h => (.ok a, h)
  bind m f := fun h =>
    match m h with
    | (.error e, h) => (.error e, h)
    | (.ok a, h) => f a h

/-- A computation that leaves the heap alone. No code of its own. -/
def OnHeap.lift {α : Type} (x : PyM α) : OnHeap S τ D K α := fun h => (x, h)

/-- A computation that reads the heap. No code of its own. -/
def OnHeap.read {α : Type} (f : List (Obj S τ D K) → PyM α) : OnHeap S τ D K α :=
  fun h => (f h, h)

/-- Follow a reference.  (Dangling references do not occur.) (E.g. `sktime/base.py` 908, 951, 1062.) -/
def deref (h : List (Obj S τ D K)) (r : Nat) : PyM (Obj S τ D K) :=
  match h[r]? with
  | some o => .ok o
  | none => .error .attributeError

/-- Make a new object. (E.g. `sktime/base.py` 916, 946, 1029.) -/
def alloc (o : Obj S τ D K) : OnHeap S τ D K Nat := fun h => (.ok h.length, h ++ [o])

/-- `obj.clone()`. (`sktime/base.py` 916, 953.) -/
def cloneRef (r : Nat) : OnHeap S τ D K Nat := do
  let o ← OnHeap.read fun h => deref h r
  alloc o.clone

/-- `obj.fit(...)`, in place.
(`sktime/base.py` 918, 954, `sktime/univariate.py` 264-266, `sktime/multivariate.py` 279.) -/
def fitRef (r : Nat) (y : Frame String τ K) (X : Option (Frame String τ K)) (scale : Scale K) :
    OnHeap S τ D K Unit := fun h =>
  match deref h r with
  | .error e => (.error e, h)
  | .ok o =>
    match o.fit y X scale with
    | .error e => (.error e, h)
    | .ok o => (.ok (), h.set r o)

/-- Loop state of `_fit_effects`. (`sktime/base.py` 902-903, 922-934.) -/
structure FitRefs where
  fitted : List (String × Nat × List String)
  taken : List String

/-- Loop body of `_fit_effects` (`sktime/base.py` 908-937) on references; `X` is a frame. -/
def fitStepRef (compile : String → PyM (String → Bool)) (x : Frame String τ K)
    (y : Frame String τ K) (scale : Scale K) (acc : FitRefs) (e : String × Nat × Option String) :
    OnHeap S τ D K FitRefs := do
  let columns ← OnHeap.lift (matchColumns compile x.cols e.2.2)
  let xc ← OnHeap.lift (x.select columns)
  let r ← cloneRef e.2.1
  fitRef r y (some xc) scale
  pure { fitted := acc.fitted ++ [(e.1, r, columns)], taken := acc.taken ++ columns }

/-- The default effect: the user's object, or a new `LinearEffect` (`sktime/base.py` 945-953). -/
def defaultRef (default : Option Nat) (linear : Obj S τ D K) : OnHeap S τ D K Nat :=
  match default with
  | some r => pure r
  | none => alloc linear

/-- The default effect for the remaining columns (`sktime/base.py` 942-965). -/
def fitDefaultRef (default : Option Nat) (linear : Obj S τ D K) (x : Frame String τ K)
    (y : Frame String τ K) (scale : Scale K) (acc : FitRefs) :
    OnHeap S τ D K (List (String × Nat × List String)) :=
  if (remainingColumns x.cols acc.taken).isEmpty then pure acc.fitted
  else do
    let xc ← OnHeap.lift (x.select (remainingColumns x.cols acc.taken))
    let d ← defaultRef default linear
    let r ← cloneRef d
    fitRef r y (some xc) scale
    pure (acc.fitted ++ [(defaultEffectName, r, remainingColumns x.cols acc.taken)])

/-- `_fit_effects` (`sktime/base.py` 891-967) on references. -/
def fitEffectsRef (compile : String → PyM (String → Bool))
    (effects : List (String × Nat × Option String)) (default : Option Nat)
    (linear : Obj S τ D K) (x : Frame String τ K) (y : Frame String τ K) (scale : Scale K) :
    OnHeap S τ D K (List (String × Nat × List String)) := do
  let acc ← effects.foldlM (fitStepRef compile x y scale) ⟨[], []⟩
  fitDefaultRef default linear x y scale acc

/-- The fitted effects behind the references. (`sktime/base.py` 986, 1008.) -/
def derefFitted (h : List (Obj S τ D K)) (l : List (String × Nat × List String)) :
    PyM (List (FittedEffect S (Frame String τ K) (Scale K) τ K D K)) :=
  l.mapM fun e => (deref h e.2.1).map fun o => ⟨e.1, o, e.2.2⟩

/-- The dictionary behind a dictionary of references. (`models.py` 259.) -/
def derefDict (h : List (Obj S τ D K)) (d : PyDict Nat) : PyM (PyDict (Obj S τ D K)) :=
  d.mapM fun e => (deref h e.2).map fun o => (e.1, o)

/-- The `if` of the comprehension in `non_skipped_exogenous_effect`, on references.
(`sktime/base.py` 1006-1010.) -/
def keepRefs (h : List (Obj S τ D K)) :
    List (String × Nat × List String) → PyM (List (String × Nat))
  | [] => .ok []
  | e :: l => do
    let o ← deref h e.2.1
    let b ← o.skip
    let r ← keepRefs h l
    pure (if b then r else (e.1, e.2.1) :: r)

/-- `non_skipped_exogenous_effect` (`sktime/base.py` 996-1010), a dictionary of references. -/
def nonSkippedRefs (h : List (Obj S τ D K)) (l : List (String × Nat × List String)) :
    PyM (PyDict Nat) := do
  let kept ← keepRefs h l
  pure (PyDict.ofList kept)

end heap

/-! ## Fitting -/

section fit
variable {S τ D K F κ G Θ P : Type} [Field K] [LinearOrder K] [LinearOrder τ]

/-- `self._scale` as the divisor of a frame with one series.  A pandas object would be aligned
with the columns, which gives NaN. (`sktime/univariate.py` 264.) -/
def Scale.divisor : Scale K → PyM K
  | .float x => .ok x
  | .int n => .ok n
  | .table _ => .error .nonFinite

/-- The target given to the trend (`sktime/univariate.py` 261-266). -/
def trendTarget (discrete : Bool) (s : Scale K) (y : Frame String τ K) : PyM (Frame String τ K) :=
  if discrete then s.divisor.map fun k => y.mapVals fun _ v => v / k else .ok y

/-- `self._get_trend_model()`, as a reference. (`sktime/base.py` 1012-1066.) -/
def trendRef (t : TrendSrc (Obj S τ D K)) : OnHeap S τ D K Nat :=
  match t with
  | .named o => alloc o
  | .object r => pure r

/-- `feature_transformer.fit_transform(X)`: result and transformers afterwards.
(`sktime/univariate.py` 275, `sktime/multivariate.py` 257.) -/
def fitFeaturesRef (feats : List (FeatureObj F τ K)) (r : Option Nat) (x : Frame String τ K) :
    PyM (Frame String τ K) × List (FeatureObj F τ K) :=
  match r with
  | none => (.ok x, feats)
  | some r =>
    match feats[r]? with
    | none => (.error .attributeError, feats)
    | some f =>
      ((f.fitTransform f.st x).1, feats.set r { f with st := (f.fitTransform f.st x).2 })

/-- `_get_fit_data` up to the feature transformer (`sktime/univariate.py` 257-266): the reference
of the fitted trend. -/
def fitTrendRef (cfg : FcConfig S τ D K κ G) (s : Scale K) (y : Frame String τ K)
    (X : Option (Frame String τ K)) : OnHeap S τ D K Nat := do
  let r ← trendRef cfg.trend
  let yt ← OnHeap.lift (trendTarget cfg.discrete s y)
  fitRef r yt X (.float 1)
  pure r

/-- The rest of `_get_fit_data`, from the transformation by the trend on (`sktime/univariate.py`
279-304, `sktime/multivariate.py` 278-298): the new attributes and the arguments of the model. `y0`
is the target before scaling (`self._y`), `y` the target given to the effects. -/
def fitModelRef (cfg : FcConfig S τ D K κ G) (s : Scale K) (y0 y : Frame String τ K) (fh : List τ)
    (yArray : Tensor K) (sids : List (List String)) (expand : Option ExpandState)
    (kwargs : ModelKwargs K) (x : Frame String τ K) (trend : Nat) :
    OnHeap S τ D K (Prepared τ K × ModelArgs D K) := do
  let trendData ← OnHeap.read fun h => do (← deref h trend).transform (some x) fh
  let fitted ← fitEffectsRef cfg.compile cfg.effects cfg.default cfg.linear x y s
  let data ← OnHeap.read fun h => do transformEffects (← derefFitted h fitted) x fh
  let objs ← OnHeap.read fun h => nonSkippedRefs h fitted
  let trendCall ← OnHeap.read fun h => do
    let o ← deref h trend
    pure (o.cls.call o.st)
  let calls ← OnHeap.read fun h => do pure (callsOf (← derefDict h objs))
  pure ({ scale := s, trend := trend, fitted := fitted, objs := objs, kwargs := kwargs, y := y0,
          ySids := sids, expand := expand },
        { y := some yArray, trend := trendCall, trendData := trendData,
          effects := calls, data := data, kwargs := kwargs })

/-- The target of the univariate models, `y.values.reshape((-1, 1))` (`sktime/univariate.py` 285). -/
def columnArray (y : Frame String τ K) : Tensor K :=
  ⟨[(y.flatVals y.rows).length, 1], y.flatVals y.rows⟩

/-- `_get_fit_data` after the feature transformer (`sktime/univariate.py` 277-304). -/
def fitRestRef (cfg : FcConfig S τ D K κ G) (s : Scale K) (y0 y : Frame String τ K)
    (x : Frame String τ K) (trend : Nat) : OnHeap S τ D K (Prepared τ K × ModelArgs D K) := do
  let x ← OnHeap.lift (x.locTimes y.times)
  fitModelRef cfg s y0 y (unique y.times) (columnArray y) (y0.index.map Prod.fst) none
    (.univariate s) x trend

/-- What `_get_fit_data` returns or raises, with the heap and the feature transformers
afterwards. (`sktime/univariate.py` 239-304, `sktime/multivariate.py` 216-298.) -/
abbrev PrepareResult (S τ D K F : Type) :=
  PyM (Prepared τ K × ModelArgs D K) × List (Obj S τ D K) × List (FeatureObj F τ K)

/-- `_get_fit_data` of a univariate forecaster (`sktime/univariate.py` 239-304).  `y0`: the target
before scaling. -/
def prepareUni (cfg : FcConfig S τ D K κ G) (s : Scale K) (y0 y : Frame String τ K)
    (X : Option (Frame String τ K)) (heap : List (Obj S τ D K)) (feats : List (FeatureObj F τ K)) :
    PrepareResult S τ D K F :=
  match fitTrendRef cfg s y X heap with
  | (.error e, h) => (.error e, h, feats)
  | (.ok trend, h) =>
    match fitFeaturesRef feats cfg.features (X.getD (Frame.ofIndex y.times)) with
    | (.error e, fs) => (.error e, h, fs)
    | (.ok x, fs) => ((fitRestRef cfg s y0 y x trend h).1, (fitRestRef cfg s y0 y x trend h).2, fs)

/-- The target of the bottom series, as a frame and as an array, and the exogenous variables of the
bottom series (`sktime/multivariate.py` 235-254). -/
def hierBottom (o : HierOpts τ K) (y : Frame String τ K) (X : Option (Frame String τ K)) :
    PyM (Frame String τ K × Tensor K × Frame String τ K) := do
  let yB ← locBottom (aggregate o.keep y)
  let yArray ← yB.seriesToTensor
  let x ← locBottom (exogOr X
    (Frame.ofMultiIndex (aggregate o.keep y).nlevels (aggregate o.keep y).index))
  pure (yB, yArray, x)

/-- `_get_fit_data` of `HierarchicalProphet` after the feature transformer
(`sktime/multivariate.py` 259-298). -/
def fitHierRef (o : HierOpts τ K) (cfg : FcConfig S τ D K κ G) (s : Scale K)
    (y0 y yB : Frame String τ K) (yArray : Tensor K) (x : Frame String τ K) :
    OnHeap S τ D K (Prepared τ K × ModelArgs D K) := do
  let ex ← OnHeap.lift (fitExpand cfg.compile o.order o.shared x)
  let r ← trendRef cfg.trend
  fitRef r yB (some ex.2) s
  fitModelRef cfg s y0 yB (unique y.times) yArray ((aggregate o.keep y).index.map Prod.fst) ex.1
    (.hierarchical (decide (nSeries (aggregate o.keep y).nlevels
      ((aggregate o.keep y).index.map Prod.fst) = 1))) ex.2 r

/-- `_get_fit_data` of `HierarchicalProphet` (`sktime/multivariate.py` 216-298). -/
def prepareHier (o : HierOpts τ K) (cfg : FcConfig S τ D K κ G) (s : Scale K)
    (y0 y : Frame String τ K) (X : Option (Frame String τ K)) (heap : List (Obj S τ D K))
    (feats : List (FeatureObj F τ K)) : PrepareResult S τ D K F :=
  match hierBottom o y X with
  | .error e => (.error e, heap, feats)
  | .ok (yB, yArray, x) =>
    match fitFeaturesRef feats cfg.features x with
    | (.error e, fs) => (.error e, heap, fs)
    | (.ok x, fs) => ((fitHierRef o cfg s y0 y yB yArray x heap).1,
        (fitHierRef o cfg s y0 y yB yArray x heap).2, fs)

/-- `_get_fit_data`. (`sktime/univariate.py` 239-304, `sktime/multivariate.py` 216-298.) -/
def prepareRef (cfg : FcConfig S τ D K κ G) (s : Scale K) (y0 y : Frame String τ K)
    (X : Option (Frame String τ K)) (heap : List (Obj S τ D K)) (feats : List (FeatureObj F τ K)) :
    PrepareResult S τ D K F :=
  match cfg.hier with
  | none => prepareUni cfg s y0 y X heap feats
  | some o => prepareHier o cfg s y0 y X heap feats

/-- The engine made by `_fit` (`sktime/base.py` 246-268): without `rng_key` the key is
`PRNGKey(24)`. -/
def makeEngine (np : Numpyro κ G (ModelArgs D K) K Θ P (Draws K)) (cfg : FcConfig S τ D K κ G) :
    PyM (Engine κ G K Θ P (Draws K)) := do
  let k ← selectEngine cfg.method
  pure (Engine.new np k cfg.settings (some (cfg.rngKey.getD (np.prngKey 24))))

/-- The end of `_fit` (`sktime/base.py` 246-272): make the engine and run it. -/
def inferFc (np : Numpyro κ G (ModelArgs D K) K Θ P (Draws K)) (fc : Fc S τ D K κ G Θ P)
    (a : ModelArgs D K) : PyM Unit × Fc S τ D K κ G Θ P :=
  match makeEngine np fc.cfg with
  | .error e => (.error e, fc)
  | .ok eng =>
    match eng.infer np a with
    | (.error e, eng) => (.error e, { fc with engine := some eng })
    | (.ok (), eng) =>
      (.ok (), { fc with engine := some eng, posterior := eng.posterior, isFitted := true })

/-- sktime's `reset`: only the constructor arguments remain.
The arguments are those of `sktime/base.py` 818-862. -/
def Fc.reset (fc : Fc S τ D K κ G Θ P) : Fc S τ D K κ G Θ P :=
  { cfg := fc.cfg, prepared := none, engine := none, posterior := none, isFitted := false }

/-- `forecaster.fit(y, X)` for the `i`-th forecaster. (`sktime/base.py` 221-272.) -/
def World.fit (np : Numpyro κ G (ModelArgs D K) K Θ P (Draws K)) (w : World S τ D K F κ G Θ P)
    (i : Nat) (y : Frame String τ K) (X : Option (Frame String τ K)) :
    PyM Unit × World S τ D K F κ G Θ P :=
  match w.fcs[i]? with
  | none => (.error .attributeError, w)
  | some fc =>
    let fc := fc.reset
    let w := { w with fcs := w.fcs.set i fc }
    match fitTarget fc.cfg.discrete fc.cfg.scale y with
    | .error e => (.error e, w)
    | .ok (s, ys) =>
      match prepareRef fc.cfg s y ys X w.heap w.feats with
      | (.error e, h, fs) => (.error e, { w with heap := h, feats := fs })
      | (.ok (p, a), h, fs) =>
        match inferFc np { fc with prepared := some p } a with
        | (r, fc) => (r, { w with heap := h, feats := fs, fcs := w.fcs.set i fc })

/-! ## Predicting -/

/-- The prediction methods. (`sktime/base.py` 274-446, 555-590.) -/
inductive Query (K : Type) where
  | point
  | quantiles (alpha : AlphaArg K)
  | samples
  | allSites
  | allSitesSamples

/-- What they return. (`sktime/base.py` 293, 330, 413, 446, 590.) -/
inductive Answer (τ K : Type) where
  | point (f : Frame String τ K)
  | quantiles (f : Frame (String × K) τ K)
  | samples (f : Frame Nat τ K)
  | allSites (f : Frame String τ K)
  | allSitesSamples (l : PyDict (List ((Nat × List String × τ) × K)))

/-- `predict` and `predict_quantiles` of sktime check for a fitted object.
(The methods are `sktime/base.py` 274-293, 555-590.) -/
def Query.checked : Query K → Bool
  | .point => true
  | .quantiles _ => true
  | _ => false

/-- `predict_samples`, of a univariate forecaster or of `HierarchicalProphet`.
(`sktime/base.py` 415-446, `sktime/multivariate.py` 349-366.) -/
def samplesOf (hier : Option (HierOpts τ K)) (ctx : Fitted K) (obs : Tensor K) (fh : List τ) :
    PyM (Frame Nat τ K) :=
  match hier with
  | none => predictSamples ctx obs fh
  | some o => predictSamplesHier o.keep ctx obs fh

/-- From the draws to the answer (`sktime/base.py` 274-446, 555-590). -/
def Query.answer [FloorRing K] (q : Query K) (hier : Option (HierOpts τ K)) (ctx : Fitted K)
    (name : String) (d : Draws K) (fh : List τ) : PyM (Answer τ K) :=
  match q with
  | .point => do
    let f ← samplesOf hier ctx (← d.getItem "obs") fh
    pure (.point (predictPoint name f))
  | .quantiles a => do
    let f ← samplesOf hier ctx (← d.getItem "obs") fh
    pure (.quantiles (← predictQuantiles name a.toList f))
  | .samples => do pure (.samples (← samplesOf hier ctx (← d.getItem "obs") fh))
  | .allSites => do pure (.allSites (← predictAllSites ctx d fh))
  | .allSitesSamples => do
    let l ← d.mapM fun p => (siteSamples ctx p.2 fh).map fun v => (p.1, v)
    pure (.allSitesSamples l)

/-- `feature_transformer.transform(X)`. (`sktime/univariate.py` 331, `sktime/multivariate.py` 336.) -/
def featuresRef (feats : List (FeatureObj F τ K)) (r : Option Nat) (x : Frame String τ K) :
    PyM (Frame String τ K) :=
  match r with
  | none => .ok x
  | some r =>
    match feats[r]? with
    | none => .error .attributeError
    | some f => f.transform f.st x

/-- The exogenous variables as the trend and the effects see them when predicting
(`sktime/univariate.py` 324-331, `sktime/multivariate.py` 323-337). -/
def predictSeenRef (feats : List (FeatureObj F τ K)) (cfg : FcConfig S τ D K κ G)
    (p : Prepared τ K) (X : Option (Frame String τ K)) (fh : List τ) : PyM (Frame String τ K) :=
  match cfg.hier with
  | none => featuresRef feats cfg.features (X.getD (Frame.ofIndex fh))
  | some o => do
    let x ← predictExog o.keep (o.levels p.y) p.y X fh
    predictExpand (featuresRef feats cfg.features) p.expand x fh

/-- `_get_predict_data` (`sktime/univariate.py` 306-344, `sktime/multivariate.py` 300-347): the
objects are looked up when predicting. -/
def predictArgs (heap : List (Obj S τ D K)) (feats : List (FeatureObj F τ K))
    (cfg : FcConfig S τ D K κ G) (p : Prepared τ K) (X : Option (Frame String τ K))
    (fh : List τ) : PyM (ModelArgs D K) := do
  let x ← predictSeenRef feats cfg p X fh
  let t ← deref heap p.trend
  let trendData ← t.transform (some x) fh
  let fitted ← derefFitted heap p.fitted
  let data ← transformEffects fitted x fh
  let objs ← derefDict heap p.objs
  pure { y := none, trend := t.cls.call t.st, trendData := trendData, effects := callsOf objs,
         data := data, kwargs := p.kwargs }

/-- What the conversion of the draws reads. (`sktime/base.py` 517, 547-552, 606-615.) -/
def Prepared.ctx (p : Prepared τ K) (cfg : FcConfig S τ D K κ G) : Fitted K :=
  { yNlevels := p.y.nlevels, internalSids := p.ySids, hierarchical := cfg.hier.isSome,
    discrete := cfg.discrete, scale := p.scale }

/-- A prediction method of the `i`-th forecaster.  `horizon`: absolute times of a horizon, given
the times of the target.  (`HierarchicalProphet` uses the index with the aggregates for that, which
has the same times.) (`sktime/base.py` 274-446, 555-590.) -/
def World.predict [FloorRing K] {H : Type} (np : Numpyro κ G (ModelArgs D K) K Θ P (Draws K))
    (horizon : List τ → H → List τ) (w : World S τ D K F κ G Θ P) (i : Nat) (q : Query K)
    (X : Option (Frame String τ K)) (fh : H) :
    PyM (Answer τ K) × World S τ D K F κ G Θ P :=
  match w.fcs[i]? with
  | none => (.error .attributeError, w)
  | some fc =>
    if q.checked && !fc.isFitted then (.error .valueError, w) else
    match fc.prepared, fc.engine with
    | some p, some eng =>
      match predictArgs w.heap w.feats fc.cfg p X (horizon p.y.times fh) with
      | .error e => (.error e, w)
      | .ok a =>
        match eng.predict np a w.samples with
        | (r, eng, g) =>
          (r.bind fun d => q.answer fc.cfg.hier (p.ctx fc.cfg) (p.y.cols.headD "") d
              (horizon p.y.times fh),
           { w with fcs := w.fcs.set i { fc with engine := some eng }, samples := g })
    | _, _ => (.error .attributeError, w)

/-- A call made by the user. (`sktime/base.py` 221, 274-446, 555-590.) -/
inductive Op (S τ D K κ G H : Type) where
  | new (cfg : FcConfig S τ D K κ G)
  | fit (i : Nat) (y : Frame String τ K) (X : Option (Frame String τ K))
  | predict (i : Nat) (q : Query K) (X : Option (Frame String τ K)) (fh : H)

/-- The forecaster an operation is called on. No code of its own. -/
def Op.target {H : Type} : Op S τ D K κ G H → Option Nat
  | .new _ => none
  | .fit i _ _ => some i
  | .predict i _ _ _ => some i

/-- The world after a call, whether or not it raises. (`sktime/base.py` 221-272, 274-446, 555-590.) -/
def World.step [FloorRing K] {H : Type} (np : Numpyro κ G (ModelArgs D K) K Θ P (Draws K))
    (horizon : List τ → H → List τ) (w : World S τ D K F κ G Θ P) :
    Op S τ D K κ G H → World S τ D K F κ G Θ P
  | .new cfg => { w with fcs := w.fcs ++ [⟨cfg, none, none, none, false⟩] }
  | .fit i y X => (w.fit np i y X).2
  | .predict i q X fh => (w.predict np horizon i q X fh).2

/-- The world after a history of calls. (`sktime/base.py` 221-272, 274-446, 555-590.) -/
def World.run [FloorRing K] {H : Type} (np : Numpyro κ G (ModelArgs D K) K Θ P (Draws K))
    (horizon : List τ → H → List τ) (w : World S τ D K F κ G Θ P)
    (ops : List (Op S τ D K κ G H)) : World S τ D K F κ G Θ P :=
  ops.foldl (World.step np horizon) w

end fit
end PV
