import Mathlib.Algebra.Order.Ring.Defs
import Verif.Model.Likelihood
import Verif.Model.Trend

/-!
# Configuration of the forecasters (`sktime/base.py`, `sktime/univariate.py`,
`sktime/multivariate.py`, `sktime/seasonality.py`)
-/

namespace PV

/-- The argument `trend`: a string, an effect object, or something else. (`sktime/base.py` 820, 1028-1066.) -/
inductive TrendArg (E : Type) where
  | name (s : String)
  | effect (e : E)
  | other

/-- `Prophetverse` (`sktime/univariate.py` 34) and its subclasses, or `HierarchicalProphet` (`sktime/multivariate.py` 18). -/
inductive ForecasterKind where
  | univariate | hierarchical
  deriving DecidableEq, Repr

/-- The hyperparameters that are checked or select code.  A list instead of a number is possible for
two of them, which the check cannot compare with 0.
(`sktime/base.py` 818-862, `sktime/univariate.py` 150-202, `sktime/multivariate.py` 151-202.) -/
structure Config (K E : Type) where
  kind : ForecasterKind
  trend : TrendArg E
  interval : ScalarOr K
  range : ScalarOr K
  priorScale : ScalarOr K
  offsetPriorScale : K
  capacityPriorScale : K
  capacityPriorLoc : K
  noiseScale : K
  correlationConcentration : K
  likelihood : String
  inferenceMethod : String
  rngKey : Option Nat

section
variable {K E : Type} [LinearOrder K] [Zero K]

/-- `x <= 0` raises `TypeError` for a list. (`sktime/base.py` 1070, 1072.) -/
def ScalarOr.nonPos (x : ScalarOr K) : PyM Bool :=
  match x with
  | .scalar a => .ok (decide (a ≤ 0))
  | .list _ => .error .typeError

/-- `if b: raise ValueError`.
(`sktime/base.py` 1070-1086, `sktime/univariate.py` 230-237, `sktime/multivariate.py` 211-214.) -/
def rejectIf (b : Bool) : PyM Unit := if b then .error .valueError else .ok ()

/-- The trend names of `_validate_hyperparams` (`sktime/base.py` 1080-1085). -/
def validTrend (t : TrendArg E) : Bool :=
  match t with
  | .name s => ["linear", "linear_raw", "logistic", "flat"].contains s
  | .effect _ => true
  | .other => false

/-- `BaseProphetForecaster._validate_hyperparams` (`sktime/base.py` 1068-1086). -/
def validateBase (c : Config K E) : PyM Unit := do
  rejectIf (← c.interval.nonPos)
  rejectIf (← c.priorScale.nonPos)
  rejectIf (decide (c.capacityPriorScale ≤ 0))
  rejectIf (decide (c.capacityPriorLoc ≤ 0))
  rejectIf (decide (c.offsetPriorScale ≤ 0))
  rejectIf (!validTrend c.trend)

/-- `_LIKELIHOOD_MODEL_MAP` (`sktime/univariate.py` 25-29). -/
def likelihoodMap : PyDict Likelihood :=
  [("normal", .normal), ("gamma", .gamma), ("negbinomial", .negbinomial)]

/-- `_DISCRETE_LIKELIHOODS` and `_likelihood_is_discrete` (`sktime/univariate.py` 31, 217-224;
`sktime/base.py` 96-108). -/
def isDiscrete (c : Config K E) : Bool :=
  match c.kind with
  | .univariate => ["negbinomial"].contains c.likelihood
  | .hierarchical => false

/-- The constructor: it ends with `_validate_hyperparams` (`sktime/univariate.py` 204, 226-238;
`sktime/multivariate.py` 204-214). -/
def construct (c : Config K E) : PyM Unit := do
  validateBase c
  rejectIf (decide (c.noiseScale ≤ 0))
  match c.kind with
  | .univariate => rejectIf !(PyDict.keys likelihoodMap).contains c.likelihood
  | .hierarchical => rejectIf (decide (c.correlationConcentration ≤ 0))

end

section
variable {K E : Type}

/-- The trend model of a configuration, with the arguments of its constructor. (`sktime/base.py` 1028-1062.) -/
inductive TrendModel (K E : Type) where
  | linear (interval range priorScale : ScalarOr K) (offsetPriorScale : K) (removeSeasonality : Bool)
  | logistic (interval range priorScale : ScalarOr K) (offsetPriorScale capacityLoc capacityScale : K)
  | flat (priorScale : ScalarOr K)
  | custom (e : E)

/-- `_get_trend_model` (`sktime/base.py` 1012-1066).  The default of
`remove_seasonality_before_suggesting_initial_vals` is `True` (`effects/trend/piecewise.py` 65). -/
def getTrendModel (c : Config K E) : PyM (TrendModel K E) :=
  match c.trend with
  | .name s =>
    if s = "linear" then .ok (.linear c.interval c.range c.priorScale c.offsetPriorScale true)
    else if s = "linear_raw" then
      .ok (.linear c.interval c.range c.priorScale c.offsetPriorScale false)
    else if s = "logistic" then
      .ok (.logistic c.interval c.range c.priorScale c.offsetPriorScale c.capacityPriorLoc
        c.capacityPriorScale)
    else if s = "flat" then .ok (.flat c.priorScale)
    else .error .valueError
  | .effect e => .ok (.custom e)
  | .other => .error .valueError

/-- The model function. (`models.py` 13, 89, 127, 167.) -/
inductive ModelFn where
  | univariate (l : Likelihood)
  | multivariate
  deriving DecidableEq, Repr

/-- `self.model` (`sktime/univariate.py` 206-215; `sktime/multivariate.py` 204). -/
def modelFn (c : Config K E) : PyM ModelFn :=
  match c.kind with
  | .univariate => (PyDict.getItem likelihoodMap c.likelihood).map .univariate
  | .hierarchical => .ok .multivariate

/-- The two engines (`engine.py` 78, 201) chosen at `sktime/base.py` 251-267. -/
inductive EngineKind where
  | mcmc | map
  deriving DecidableEq, Repr

/-- The choice of the engine in `_fit` (`sktime/base.py` 250-268). -/
def selectEngine (method : String) : PyM EngineKind :=
  if method = "mcmc" then .ok .mcmc
  else if method = "map" then .ok .map
  else .error .valueError

end

/-! ## `seasonal_transformer` -/

/-- An argument that is a `bool`, an `int` or something else. (`sktime/seasonality.py` 8, 39-54.) -/
inductive BoolOrInt where
  | bool (b : Bool)
  | int (n : ℤ)
  | other
  deriving DecidableEq, Repr

/-- Number of terms (`sktime/seasonality.py` 39-44, 49-54), or `ValueError`. -/
def numTerms (default : ℤ) : BoolOrInt → PyM ℤ
  | .bool _ => .ok default
  | .int n => .ok n
  | .other => .error .valueError

/-- Python truth value. (`sktime/seasonality.py` 45, 56.) -/
def BoolOrInt.truthy : BoolOrInt → Bool
  | .bool b => b
  | .int n => n != 0
  | .other => true

/-- `seasonal_transformer` (`sktime/seasonality.py` 7-65): `sp_list` and `fourier_terms_list` of the
transformer. -/
def seasonalTransformer (yearly weekly : BoolOrInt) : PyM (List String × List ℤ) := do
  let ny ← numTerms 10 yearly
  let l1 : List String × List ℤ := if yearly.truthy then (["Y"], [ny]) else ([], [])
  let nw ← numTerms 3 weekly
  pure (if weekly.truthy then (l1.1 ++ ["W"], l1.2 ++ [nw]) else l1)

/-! ## Effects as a parameter -/

/-- `exogenous_effects`: name, effect, regex. (`sktime/base.py` 827, 850, 872.) -/
abbrev EffectList (E : Type) := List (String × E × Option String)

/-- An element of the list given to the setter. (`sktime/base.py` 875-889.) -/
inductive EffectTuple (E : Type) where
  | pair (name : String) (e : E)
  | triple (name : String) (e : E) (regex : Option String)
  | other (n : Nat)

/-- `len(x)` (`sktime/base.py` 882-883). -/
def EffectTuple.len {E : Type} : EffectTuple E → Nat
  | .pair _ _ => 2
  | .triple _ _ _ => 3
  | .other n => n

/-- Getter of `_exogenous_effects` (`sktime/base.py` 864-872). -/
def getEffects {E : Type} (l : Option (EffectList E)) : List (String × E) :=
  match l with
  | none => []
  | some l => l.map fun p => (p.1, p.2.1)

/-- The comprehension of the setter (`sktime/base.py` 886-889): unpacking a tuple that is not a pair
is a `ValueError`. -/
def zipEffects {E : Type} : List (EffectTuple E) → EffectList E → PyM (EffectList E)
  | .pair n e :: v, p :: l => do
    let r ← zipEffects v l
    pure ((n, e, p.2.2) :: r)
  | _ :: _, _ :: _ => .error .valueError
  | _, _ => .ok []

/-- Setter of `_exogenous_effects` (`sktime/base.py` 874-889).  `zip(value, None)` is a
`TypeError`. -/
def setEffects {E : Type} (value : List (EffectTuple E)) (old : Option (EffectList E)) :
    PyM (EffectList E) :=
  match value with
  | [] => .error .indexError
  | a :: v =>
    if ¬ (a.len = 2 ∨ a.len = 3) then .error .assertionError
    else if ∃ x ∈ v, x.len ≠ a.len then .error .assertionError
    else match old with
      | none => .error .typeError
      | some l => zipEffects (a :: v) l

/-- `_replace_estimator` of sktime's `_HeterogenousMetaEstimator`, the loop.
Reads and writes `_exogenous_effects` (`sktime/base.py` 815, 864-889). -/
def replaceFirst {E : Type} (name : String) (e : E) : List (String × E) → List (String × E)
  | [] => []
  | p :: l => if p.1 = name then (name, e) :: l else p :: replaceFirst name e l

/-- `set_params(<name>=effect)`: for the name of an effect, `_replace_estimator` writes the list back
through the setter; other names are not step replacements (`none`). (`sktime/base.py` 815, 864-889.) -/
def replaceEffect {E : Type} (name : String) (e : E) (l : Option (EffectList E)) :
    Option (PyM (EffectList E)) :=
  if (getEffects l).any fun p => p.1 = name then
    some (setEffects ((replaceFirst name e (getEffects l)).map fun p => .pair p.1 p.2) l)
  else none

end PV
