import Verif.Model.World

/-!
# What a forecaster computes, as a function of values

No objects, no history: the fitted model and the predictions as functions of the contents of the
configuration and of the data.
-/

namespace PV
section
variable {S τ D K F κ G Θ P : Type} [Field K] [LinearOrder K] [LinearOrder τ]

/-- The contents of a configuration. -/
structure Contents (S τ D K F κ G : Type) where
  compile : String → PyM (String → Bool)
  trend : Obj S τ D K
  effects : List (EffectSpec S (Frame String τ K) (Scale K) τ K D K)
  default : Obj S τ D K
  features : Option (FeatureObj F τ K)
  hier : Option (HierOpts τ K)
  discrete : Bool
  scale : Option (Scale K)
  rngKey : Option κ
  method : String
  settings : G

/-- The configuration of the data preparation of a univariate forecaster.  `x0` is the frame of
exogenous variables given to the feature transformer in `fit`. -/
def Contents.uni (c : Contents S τ D K F κ G) (s : Scale K) (k : K) (x0 : Frame String τ K) :
    UniConfig S (Scale K) τ K D K :=
  { compile := c.compile, trend := c.trend, effects := c.effects, default := c.default,
    fitFeatures := fun x => match c.features with
      | none => .ok x
      | some f => (f.fitTransform f.st x).1
    features := fun x => match c.features with
      | none => .ok x
      | some f => f.transform (f.fitTransform f.st x0).2 x
    discrete := c.discrete, unitScale := .float 1, effectScale := s, scale := k }

/-- The configuration of the data preparation of a hierarchical forecaster. -/
def Contents.hierConfig (c : Contents S τ D K F κ G) (o : HierOpts τ K) (s : Scale K)
    (x0 : PyM (Frame String τ K)) : HierConfig S (Scale K) τ D K :=
  { compile := c.compile, order := o.order, keep := o.keep, trend := c.trend, effects := c.effects,
    default := c.default,
    fitFeatures := fun x => match c.features with
      | none => .ok x
      | some f => (f.fitTransform f.st x).1
    features := fun x => match c.features with
      | none => .ok x
      | some f => x0.bind fun x0 => f.transform (f.fitTransform f.st x0).2 x
    shared := o.shared, scale := s }

/-- Everything before inference. -/
inductive ValPrepared (S τ D K : Type) where
  | uni (cfg : UniConfig S (Scale K) τ K D K) (fit : UniFit S (Scale K) τ K D K) (scale : Scale K)
  | hier (opts : HierOpts τ K) (cfg : HierConfig S (Scale K) τ D K)
      (fit : HierFit S (Scale K) τ D K) (scale : Scale K)

/-- The frame of exogenous variables given to the feature transformer of a hierarchical
forecaster. -/
def hierSeen (keep : List String → Bool) (ys : Frame String τ K) (X : Option (Frame String τ K)) :
    PyM (Frame String τ K) :=
  locBottom (exogOr X (Frame.ofMultiIndex (aggregate keep ys).nlevels (aggregate keep ys).index))

def valPrepare (c : Contents S τ D K F κ G) (y : Frame String τ K)
    (X : Option (Frame String τ K)) : PyM (ValPrepared S τ D K) := do
  let (s, ys) ← fitTarget c.discrete c.scale y
  match c.hier with
  | none => do
    let k ← if c.discrete then s.divisor else pure 1
    let u := c.uni s k (X.getD (Frame.ofIndex ys.times))
    let m ← uniFitData u ys X
    pure (.uni u m s)
  | some o => do
    let u := c.hierConfig o s (hierSeen o.keep ys X)
    let m ← hierFitData u ys X
    pure (.hier o u m s)

/-- The scale of the target. -/
def ValPrepared.scale : ValPrepared S τ D K → Scale K
  | .uni _ _ s => s
  | .hier _ _ _ s => s

/-- The series labels the forecast is about, before aggregates are dropped. -/
def ValPrepared.sids (v : ValPrepared S τ D K) (y : Frame String τ K) : List (List String) :=
  match v with
  | .uni _ _ _ => y.index.map Prod.fst
  | .hier _ _ m _ => m.internalIndex.map Prod.fst

/-- Arguments of the model when fitting. -/
def ValPrepared.fitArgs : ValPrepared S τ D K → ModelArgs D K
  | .uni _ m s =>
    { y := some ⟨[m.yArray.length, 1], m.yArray⟩, trend := m.trend.cls.call m.trend.st,
      trendData := m.trendData, effects := callsOf m.objs, data := m.data, kwargs := .univariate s }
  | .hier _ _ m _ =>
    { y := some m.yArray, trend := m.trend.cls.call m.trend.st, trendData := m.trendData,
      effects := callsOf m.objs, data := m.data, kwargs := .hierarchical m.single }

/-- Arguments of the model when predicting; `y` is the target given to `fit`. -/
def ValPrepared.predictArgs (v : ValPrepared S τ D K) (y : Frame String τ K)
    (X : Option (Frame String τ K)) (fh : List τ) : PyM (ModelArgs D K) :=
  match v with
  | .uni u m s => (uniPredictData u m X fh).map fun d =>
      { y := none, trend := m.trend.cls.call m.trend.st, trendData := d.1,
        effects := callsOf m.objs, data := d.2, kwargs := .univariate s }
  | .hier o u m _ => (hierPredictData u m (o.levels y) y X fh).map fun d =>
      { y := none, trend := m.trend.cls.call m.trend.st, trendData := d.1,
        effects := callsOf m.objs, data := d.2, kwargs := .hierarchical m.single }

/-- The engine after inference, and whether inference raised. -/
def valInfer (np : Numpyro κ G (ModelArgs D K) K Θ P (Draws K)) (c : Contents S τ D K F κ G)
    (a : ModelArgs D K) : PyM Unit × Option (Engine κ G K Θ P (Draws K)) :=
  match selectEngine c.method with
  | .error e => (.error e, none)
  | .ok kind =>
    match (Engine.new np kind c.settings (some (c.rngKey.getD (np.prngKey 24)))).infer np a with
    | (r, eng) => (r, some eng)

/-- Result of `fit(y, X)`. -/
def valFit (np : Numpyro κ G (ModelArgs D K) K Θ P (Draws K)) (c : Contents S τ D K F κ G)
    (y : Frame String τ K) (X : Option (Frame String τ K)) : PyM Unit :=
  match valPrepare c y X with
  | .error e => .error e
  | .ok v => (valInfer np c v.fitArgs).1

/-- Result of a prediction after `fit(y, X)` has returned normally or raised.  (`predict_samples`
and `predict_all_sites*` do not check whether `fit` succeeded.) -/
def valPredict [FloorRing K] {H : Type} (np : Numpyro κ G (ModelArgs D K) K Θ P (Draws K))
    (horizon : List τ → H → List τ) (c : Contents S τ D K F κ G) (y : Frame String τ K)
    (X : Option (Frame String τ K)) (q : Query K) (X' : Option (Frame String τ K)) (fh : H) :
    PyM (Answer τ K) :=
  if q.checked && !(valFit np c y X).isOk then .error .valueError
  else
    match valPrepare c y X with
    | .error _ => .error .attributeError
    | .ok v =>
      match (valInfer np c v.fitArgs).2 with
      | none => .error .attributeError
      | some eng => do
        let a ← v.predictArgs y X' (horizon y.times fh)
        let d ← eng.draws np a
        q.answer c.hier { yNlevels := y.nlevels, internalSids := v.sids y,
                          hierarchical := c.hier.isSome, discrete := c.discrete, scale := v.scale }
          (y.cols.headD "") d (horizon y.times fh)

end
end PV
