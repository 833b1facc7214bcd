import Mathlib.Algebra.Order.Field.Basic
import Verif.Model.Config

/-!
# Constructors of the univariate forecasters (`sktime/univariate.py` 150-204, 497-543, 625-671,
753-799)

`Prophet`, `ProphetGamma` and `ProphetNegBinomial` have only a constructor, which calls the one of
`Prophetverse`.
-/

namespace PV

/-- Keyword arguments of a call; `none`: not passed.  (An argument that is passed as `None` is
`some none`.)  `E`: effect objects; `T`: feature transformers; `W`: values in `optimizer_kwargs`;
`C`: values of `scale`. (`sktime/univariate.py` 150-173.) -/
structure UniArgs (K E T W C : Type) where
  trend : Option (TrendArg E) := none
  interval : Option (ScalarOr K) := none
  range : Option (ScalarOr K) := none
  priorScale : Option (ScalarOr K) := none
  offsetPriorScale : Option K := none
  capacityPriorScale : Option K := none
  capacityPriorLoc : Option K := none
  exogenousEffects : Option (Option (EffectList E)) := none
  defaultEffect : Option (Option E) := none
  featureTransformer : Option (Option T) := none
  noiseScale : Option K := none
  mcmcSamples : Option Nat := none
  mcmcWarmup : Option Nat := none
  mcmcChains : Option Nat := none
  inferenceMethod : Option String := none
  optimizerName : Option (Option String) := none
  optimizerKwargs : Option (Option (PyDict W)) := none
  optimizerSteps : Option Nat := none
  scale : Option (Option C) := none
  rngKey : Option (Option Nat) := none

/-- The attributes set by the constructor. (`sktime/univariate.py` 175-202, `sktime/base.py` 85-93, 841-851.) -/
structure UniObject (K E T W C : Type) where
  trend : TrendArg E
  interval : ScalarOr K
  range : ScalarOr K
  priorScale : ScalarOr K
  offsetPriorScale : K
  capacityPriorScale : K
  capacityPriorLoc : K
  exogenousEffects : Option (EffectList E)
  defaultEffect : Option E
  featureTransformer : Option T
  noiseScale : K
  mcmcSamples : Nat
  mcmcWarmup : Nat
  mcmcChains : Nat
  inferenceMethod : String
  optimizerName : Option String
  optimizerKwargs : Option (PyDict W)
  optimizerSteps : Nat
  likelihood : String
  scale : Option C
  rngKey : Option Nat

section
variable {K E T W C : Type} [Field K]

/-- The attributes set by `Prophetverse.__init__` (`sktime/univariate.py` 150-202); `likelihood =
none`: not passed. -/
def prophetverseInit (a : UniArgs K E T W C) (likelihood : Option String) : UniObject K E T W C :=
  { trend := a.trend.getD (.name "linear")
    interval := a.interval.getD (.scalar 25)
    range := a.range.getD (.scalar (8 / 10))
    priorScale := a.priorScale.getD (.scalar (1 / 1000))
    offsetPriorScale := a.offsetPriorScale.getD (1 / 10)
    capacityPriorScale := a.capacityPriorScale.getD (2 / 10)
    capacityPriorLoc := a.capacityPriorLoc.getD (11 / 10)
    exogenousEffects := a.exogenousEffects.getD none
    defaultEffect := a.defaultEffect.getD none
    featureTransformer := a.featureTransformer.getD none
    noiseScale := a.noiseScale.getD (5 / 100)
    mcmcSamples := a.mcmcSamples.getD 2000
    mcmcWarmup := a.mcmcWarmup.getD 200
    mcmcChains := a.mcmcChains.getD 4
    inferenceMethod := a.inferenceMethod.getD "map"
    optimizerName := a.optimizerName.getD (some "Adam")
    optimizerKwargs := a.optimizerKwargs.getD none
    optimizerSteps := a.optimizerSteps.getD 100000
    likelihood := likelihood.getD "normal"
    scale := a.scale.getD none
    rngKey := a.rngKey.getD none }

/-- The call of `super().__init__` in the three subclasses, all arguments named
(`sktime/univariate.py` 521-543, 649-671, 777-799), after their own defaults
(`sktime/univariate.py` 497-519, 625-647, 753-775), which are the same in the three classes. -/
def subclassInit (likelihood : String) (a : UniArgs K E T W C) : UniObject K E T W C :=
  prophetverseInit
    { trend := some (a.trend.getD (.name "logistic"))
      interval := some (a.interval.getD (.scalar 25))
      range := some (a.range.getD (.scalar (8 / 10)))
      priorScale := some (a.priorScale.getD (.scalar (1 / 1000)))
      offsetPriorScale := some (a.offsetPriorScale.getD (1 / 10))
      featureTransformer := some (a.featureTransformer.getD none)
      capacityPriorScale := some (a.capacityPriorScale.getD (2 / 10))
      capacityPriorLoc := some (a.capacityPriorLoc.getD (11 / 10))
      noiseScale := some (a.noiseScale.getD (5 / 100))
      mcmcSamples := some (a.mcmcSamples.getD 2000)
      mcmcWarmup := some (a.mcmcWarmup.getD 200)
      mcmcChains := some (a.mcmcChains.getD 4)
      inferenceMethod := some (a.inferenceMethod.getD "map")
      optimizerName := some (a.optimizerName.getD (some "Adam"))
      optimizerKwargs := some (a.optimizerKwargs.getD none)
      optimizerSteps := some (a.optimizerSteps.getD 100000)
      exogenousEffects := some (a.exogenousEffects.getD none)
      defaultEffect := some (a.defaultEffect.getD none)
      scale := some (a.scale.getD none)
      rngKey := some (a.rngKey.getD none) }
    (some likelihood)

/-- `Prophet(...)` (`sktime/univariate.py` 497-543). -/
def prophetInit (a : UniArgs K E T W C) : UniObject K E T W C := subclassInit "normal" a

/-- `ProphetGamma(...)` (`sktime/univariate.py` 625-671). -/
def prophetGammaInit (a : UniArgs K E T W C) : UniObject K E T W C := subclassInit "gamma" a

/-- `ProphetNegBinomial(...)` (`sktime/univariate.py` 753-799). -/
def prophetNegBinomialInit (a : UniArgs K E T W C) : UniObject K E T W C :=
  subclassInit "negbinomial" a

/-- The part of the attributes that is checked or selects code.
(`sktime/base.py` 1068-1086, `sktime/univariate.py` 226-237.) -/
def UniObject.config (o : UniObject K E T W C) : Config K E :=
  { kind := .univariate, trend := o.trend, interval := o.interval, range := o.range,
    priorScale := o.priorScale, offsetPriorScale := o.offsetPriorScale,
    capacityPriorScale := o.capacityPriorScale, capacityPriorLoc := o.capacityPriorLoc,
    noiseScale := o.noiseScale, correlationConcentration := 1, likelihood := o.likelihood,
    inferenceMethod := o.inferenceMethod, rngKey := o.rngKey }

end

/-! ## The optimizer (`sktime/base.py` 110-146) -/

/-- `numpyro.optim` and the chain built from optax: `optimizer name kwargs`
(`none`: there is no such attribute) and `cosineAdam init_value decay_steps others`.
(`sktime/base.py` 130-146.) -/
structure OptimLib (W O : Type) where
  optimizer : String → Option (PyDict W → PyM O)
  cosineAdam : PyDict W → PyM O

/-- The parameters of `optax.cosine_decay_schedule`. (`sktime/base.py` 135.) -/
def cosineParams : List String := ["init_value", "decay_steps", "alpha", "exponent"]

/-- `optax.cosine_decay_schedule(**kwargs)`, the check of the names: `TypeError` for an unknown
name and for a missing one of the two without default. (`sktime/base.py` 135.) -/
def cosineCheck {W : Type} (kw : PyDict W) : PyM Unit :=
  if (∀ k ∈ PyDict.keys kw, k ∈ cosineParams) ∧ "init_value" ∈ PyDict.keys kw ∧
      "decay_steps" ∈ PyDict.keys kw then .ok ()
  else .error .typeError

/-- `optimizer()` (`sktime/base.py` 110-146).  `step`: `1e-4`. -/
def chooseOptimizer {W O : Type} (lib : OptimLib W O) (step : W) (name : Option String)
    (kwargs : Option (PyDict W)) : PyM O :=
  let kw := kwargs.getD [("step_size", step)]
  let nm := name.getD "Adam"
  if "optax".toList.isPrefixOf nm.toList then do
    cosineCheck kw
    lib.cosineAdam kw
  else
    match lib.optimizer nm with
    | none => .error .attributeError
    | some f => f kw

end PV
